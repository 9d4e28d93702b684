# Formal model of relibc: design

The source is redox-os/relibc as found in `/repo`. It is read as text only: nothing was built or run.
`properties.jsonl` lists the properties. `MANIFEST.json` maps each property to its theorems. This file says what is
modelled, how each property is proved, and what is missing.

## Layout

Modules are under `lean/Verif/`, one directory per area.

* `…Model.lean` – functions and state machines transcribed from the Rust code. Each definition cites the file and
  lines it models, and says where it simplifies.
* `…Props.lean` – property theorems `CNN_…`, with their specification (written without the model's helpers) and
  examples beside them. `…Proofs.lean`, `…Lemmas.lean` – helper lemmas. `…Examples.lean` – executions used as witnesses.
* `Mem/Basic.lean` – the memory model. `Conc/` – fairness.
* `Audit.lean` – imports everything, and fails the build if any theorem depends on an axiom other than the three below.

Names: `CNN_…` proved as the property says (for that part of it); `CNN_…_partial` needs a hypothesis the property does
not have, or says less; `CNN_…_violation` shows by a concrete case that the code does not have the property.
A property is "proved" in the manifest only if no part of it is partial or violated.

## Modelling conventions

* **Memory.** `Mem α` maps an address (`Nat`) to an optional element: `none` is not mapped. A read or write of an
  unmapped address makes the function return `none`. A theorem that concludes `= some …` therefore says also that
  nothing outside the stated arrays was touched, and results are given as the whole memory after the call.
  Source and destination are disjoint where the C standard demands it.
* **Machine integers.** `UInt8/16/32/64`, `BitVec`, or `Nat`/`Int` with explicit wrap-around. 64-bit little-endian target,
  `c_char` = `i8`, `c_long` = `i64`. Arithmetic overflow wraps as in release builds unless a definition says otherwise.
* **Panics and undefined behaviour** are explicit error values (`none` or a constructor), never a default.
* **Loops** are structural recursion, well-founded recursion, or `partial_fixpoint` where the Rust loop may not end; then
  "does not end" is a statement that can be proved.
* **Concurrency.** Interleaving of atomic steps: shared words and a program counter per thread; each atomic access is one
  step; thread identifiers range over an arbitrary type. Futexes: `wait(v)` compares and sleeps in one step, `wake` makes
  sleepers runnable, spurious wake-ups are always possible. Liveness theorems assume weak fairness (`Conc/`).
  For signals, other threads may change the shared words arbitrarily (within what their own code does) before each access.
* **Kernel calls** are arbitrary functions or relations restricted only by their documented contract (a read returns at
  most as many bytes as asked, and those of the file, and so on). Errors are always possible unless a definition says otherwise.

## Trusted base

* Lean 4.33.0's kernel. Every theorem depends on at most `propext`, `Classical.choice`, `Quot.sound`
  (checked by `Verif/Audit.lean` during the build). No axioms of our own, no `sorry`, no `native_decide`, no `bv_decide`.
* The transcription from Rust to Lean, by hand.
* Library functions of Rust, written out from their documentation: UTF-8 decoding of `core`, `char::to_digit`,
  `char::is_whitespace`, `from_str_radix`, `split`, `split_whitespace`, integer formatting, `leading_zeros`, `swap_bytes`,
  `slice::get`, `Vec` growth, `BTreeMap` order.
* Crates by contract: `memchr`, `cbitset`, dlmalloc (`Allocator.Sound`), posix-regex (`accepts`), the hash lookup of `object`.
* Kernel contracts: files (`Stdio.Kernel`), epoll (`Waits`, `EEXIST` as on Linux), `getdents`, futex, `sigdeq` of the
  Redox signal scheme, `mmap` returns unused memory.

### Not modelled

* Weak memory: all atomics are sequentially consistent.
* NULL arguments, except where a theorem mentions them; overlapping source and destination of restrict-qualified arguments.
* Floating point: printf and scanf of floating point numbers, `math.h`. `drand48` uses that a subtraction is exact (stated
  as a hypothesis).
* Assembly: the signal trampoline, context switches, `setjmp`.
* Positional arguments of printf; `VaList` is a list of 64-bit words. `%n` in `asprintf`.
* `O_APPEND` streams. Wide-oriented streams. scanf from a stream, and of wide characters.
* Locks around the random number generators and `getopt`'s globals: calls are sequential.
* qsort's comparator is a function (it does not change the array); `environ` strings live in a memory of their own.
* Network databases: lines are ASCII, opening the file succeeds. DNS: ASCII names; sockets are left out.
* Signal handlers' addresses are below 2^57.
* Linker: reading and parsing ELF files, symbol hash tables, relocations other than `DT_RELR`, debugger tables. Thread-local
  storage: x86_64 layout, allocation does not fail, initial images do not change. Ghost fields: `bound` (what a needed
  name was found to be), `own` (which segment a module id belongs to).
* Platform code of Redox and `redox-rt` besides signals, `posix_spawn`, `execve` of scripts, the start of a program, the
  descriptor table, the working directory and symbolic links, timers, shared rings, socket addresses and messages. The crate `redox-path` (not in the repository) is a parameter.

## Testing the theorems

`seeded/LOG.jsonl` records mutations: in a scratch copy one definition of a model is changed as a realistic bug would, the
project is rebuilt, and the theorems that fail are noted. Where none failed though the claim became false, the theorem was
tightened (`tightened`). A mutation that breaks only helper lemmas is followed through the dependency graph: a theorem
counts as failed if its proof, or a lemma it uses, no longer checks.

## Per property

### C01 Lock: mutual exclusion (proved)

* Model: `Sync/MutexModel`: the futex lock `sync/mutex.rs` as a step relation, word 0/1/2, one program counter per thread, any number of threads.
* Proof: inductive invariant.
* Theorems: `C01_mutual_exclusion`, `C01_try_lock_exact`.

### C02 Lock: no lost wakeup (proved)

* Model: as C01; `Conc/*` has weak fairness.
* Proof: invariant that accounts for every sleeper; fairness argument for eventual waking.
* Theorems: `C02_no_stranded_sleeper`, `C02_sleeper_accounted`, `C02_sleeper_eventually_woken`.

### C03 pthread_once: initialiser runs exactly once (proved)

* Model: `Sync/OnceModel`: `sync/once.rs` and `pthread_once`, ghost count of runs.
* Proof: inductive invariant.
* Theorems: `C03_at_most_once`, `C03_return_after_completion`.

### C04 pthread_once: waiters are released (proved)

* Model: as C03.
* Proof: invariant, fairness.
* Theorems: `C04_sleeper_accounted`, `C04_sleeper_eventually_woken`.

### C05 Semaphore: token conservation (proved)

* Model: `Sync/SemaphoreModel`: `sync/semaphore.rs`, `sem_*`; ghost counters of tokens.
* Proof: inductive invariant, modulo 2^32 and without wrap-around.
* Theorems: `C05_conservation`, `C05_conservation_mod`, `C05_no_overdraw`.
* The code departs from the property: `C05_overflow_violation`.
* No overdraw proved without bounds; exact balance while fewer than 2^32 tokens were supplied, modulo 2^32 always. Beyond that range sem_post wraps and tokens are lost (witness proved).

### C06 Semaphore: a sleeping waiter is never stranded while tokens are available (partial)

* Model: as C05.
* Proof: invariant, fairness; witnesses.
* Theorems: `C06_sleeper_accounted`, `C06_sleeper_eventually_woken`, `C06_trywait_never_sleeps`, `C06_wait_results`.
* The code departs from the property: `C06_spurious_eagain_violation`.
* No stranded waiter proved (safety and liveness). sem_wait can however fail with EAGAIN although nothing went wrong: witness proved.

### C07 Read-write lock: exclusion (proved)

* Model: `Sync/RwLockModel`: `sync/rwlock.rs`, the state word with reader count, exclusive value and waiting bit.
* Proof: inductive invariant.
* Theorems: `C07_state_exact`, `C07_try_busy_only_if_held`, `C07_writer_excludes_all`.

### C08 Read-write lock: no lost wakeup (proved)

* Model: as C07.
* Proof: invariant, fairness.
* Theorems: `C08_sleeper_accounted`, `C08_sleeper_woken_after_release`.

### C09 pthread_mutex: ownership (partial)

* Model: `Sync/PMutexModel`: `sync/pthread_mutex.rs`, all kinds, owner word, recursion count.
* Proof: inductive invariant.
* Theorems: `C09_errorcheck_relock_fails`, `C09_free_iff_all_released`, `C09_mutual_exclusion`, `C09_no_self_deadlock`, `C09_nonrecursive_once`, `C09_recursion_counted`, `C09_success_acquires`, `C09_trylock_busy`, `C09_unlock_checks_owner`.
* The code departs from the property: `C09_errorcheck_eagain_violation`.
* Everything proved except the error number: relocking an error-checking mutex reports EAGAIN, POSIX says EDEADLK (witness proved).

### C10 pthread_mutex: no lost wakeup (proved)

* Model: as C09.
* Proof: invariant, fairness.
* Theorems: `C10_sleeper_accounted`, `C10_sleeper_woken_after_unlock`.

### C11 pthread_cond: signals sent under the mutex are not lost (partial)

* Model: `Sync/CondModel`: `sync/cond.rs`, waiters and signallers with the mutex, also signallers without it.
* Proof: inductive invariant over the generation words; witness for the lost wakeup.
* Theorems: `C11_returns_with_mutex`, `C11_signal_before_sleep_partial`, `C11_signal_not_lost_partial`, `C11_signalled_thread_wakes_partial`.
* The code departs from the property: `C11_unlocked_signal_lost_violation`.
* Proved for histories with fewer than 2^32 signals (the generation counter is 32 bits). Without the mutex held, which the property excludes but POSIX allows, a wakeup can be lost: witness proved.

### C12 pthread_barrier: nobody passes early, one serial thread per round (partial)

* Model: `Sync/BarrierModel`: `sync/barrier.rs`, lock and condition variable as blocking steps.
* Proof: invariant over rounds with ghost arrival lists.
* Theorems: `C12_at_most_one_serial`, `C12_completed_round_not_stranded_partial`, `C12_exactly_one_serial`, `C12_nobody_passes_early`, `C12_round_results`, `C12_round_size`, `C12_serial_unique`.
* Entry and serial-thread claims proved without bounds. That sleepers of a completed round are woken is proved for fewer than 2^32 rounds.

### C13 Spinlock: mutual exclusion (proved)

* Model: `Sync/SpinModel`: `pthread_spin_*`.
* Proof: inductive invariant.
* Theorems: `C13_free_lock_obtainable`, `C13_mutual_exclusion`, `C13_trylock_exact`.

### C14 pthread_join delivers the thread's return value (proved)

* Model: `Sync/JoinModel`: `sync/waitval.rs`, `pthread/mod.rs` exit, join and detach.
* Proof: inductive invariant, fairness.
* Theorems: `C14_join_delivers_result`, `C14_joiner_eventually_woken`, `C14_joiner_not_stranded`.

### C15 Thread-specific data behaves as a map (proved)

* Model: `Thread/TlsModel`: `pthread_key_*`, `pthread_*specific`.
* Proof: refinement of a map, over all histories.
* Theorems: `C15_getspecific`, `C15_keys_unique`, `C15_setspecific_result`, `C15_spec_total`.

### C16 Thread exit runs key destructors correctly (proved)

* Model: as C15, the destructor passes at thread exit.
* Proof: induction over passes; destructors may call the API.
* Theorems: `C16_pass_calls`, `C16_pass_exact`, `C16_passes`, `C16_reachable`, `C16_run`, `C16_value_delivered`.

### C17 memmove/memcpy/memset/memccpy: exact effect and nothing else (proved)

* Model: `Str/MemModel`: `mem*` with their word loops, over `Mem` (address to optional byte).
* Proof: loop induction; result memory equal to an explicit patch.
* Theorems: `C17_memccpy`, `C17_memcpy`, `C17_memmove`, `C17_memset`, `C17_patch_meaning`.

### C18 memcmp/strcmp/strncmp order strings lexicographically (proved)

* Model: `Str/MemModel`, `Str/StrModel`.
* Proof: loop induction, refinement of the order on lists.
* Theorems: `C18_memcmp`, `C18_strcmp`, `C18_strncmp`.

### C19 Search functions return the right position (partial)

* Model: as C18; `memchr`/`memrchr` crate functions by contract.
* Proof: loop induction.
* Theorems: `C19_memchr`, `C19_memrchr`, `C19_strchr`, `C19_strchrnul`, `C19_strrchr_partial`.
* The code departs from the property: `C19_strrchr_nul_violation`.
* strrchr(s, 0) returns NULL instead of the terminator (witness proved); everything else proved in full.

### C20 strstr/memmem find the first occurrence (partial)

* Model: as C18.
* Proof: loop induction, first-occurrence specification.
* Theorems: `C20_memmem`, `C20_strcasestr_partial`, `C20_strstr_partial`.
* The code departs from the property: `C20_strcasestr_violation`, `C20_strstr_empty_violation`.
* strstr of an empty needle in an empty string returns NULL (witness proved), strcasestr's case mask confuses non-letters (witness proved); the remaining cases proved.

### C21 strspn/strcspn/strpbrk/strsep/strtok_r tokenise as specified (proved)

* Model: `Str/StrModel`: spans, `strtok_r`, `strsep`.
* Proof: loop induction; uniqueness of the tokens.
* Theorems: `C21_fields_unique`, `C21_strcspn`, `C21_strpbrk`, `C21_strsep`, `C21_strspn`, `C21_strtok`, `C21_strtok_run_unique`, `C21_tokens_unique`.

### C22 Bounded string copies never overflow and report truncation (proved)

* Model: `Str/StrModel`: copies.
* Proof: loop induction; result memory equal to an explicit patch.
* Theorems: `C22_stpcpy`, `C22_stpncpy`, `C22_strcat`, `C22_strcpy`, `C22_strlcat`, `C22_strlcpy`, `C22_strlcpy_bound`, `C22_strlen`, `C22_strncat`, `C22_strncat_string`, `C22_strncpy`, `C22_strndup`, `C22_strnlen`, `C22_strxfrm`.

### C23 strtol family: value, end pointer and errno (partial)

* Model: `Stdlib/StrtolModel`: `strto_impl!`, `convert_*`, errno.
* Proof: refinement of an independent numeral grammar (`NumberSpec`).
* Theorems: `C23_atoi`, `C23_bad_base`, `C23_no_conversion`, `C23_strtoimax_partial`, `C23_strtol_partial`, `C23_strtoul_partial`.
* The code departs from the property: `C23_hex_violation`, `C23_long_min_violation`, `C23_octal_violation`, `C23_strtoimax_violation`.
* Proved for every text and base except: base-8 numerals without a leading 0, a dangling 0x, and LONG_MIN (errno ERANGE although the value is right); strtoimax above INTMAX_MAX. Each exception has a violation theorem with a witness.

### C24 a64l and l64a are inverse (proved)

* Model: `Stdlib/Radix64Model`.
* Proof: induction over digits.
* Theorems: `C24_a64l`, `C24_invalid`, `C24_l64a`, `C24_roundtrip`.

### C25 qsort sorts and permutes (proved)

* Model: `Stdlib/SortModel`: `sort.rs` (its introsort is an insertion sort), byte-wise swaps over memory; comparator any function with a state.
* Proof: loop induction; refinement of a list insertion sort.
* Theorems: `C25_permutation`, `C25_sorted`.

### C26 bsearch finds a match exactly when one exists (proved)

* Model: `Stdlib/SortModel`: `bsearch`.
* Proof: induction on the interval.
* Theorems: `C26_bsearch`, `C26_sorted_array`.

### C27 Environment is a map from names to values (partial)

* Model: `Stdlib/EnvModel`: the `environ` table.
* Proof: refinement of a finite map over histories.
* Theorems: `C27_getenv`, `C27_history`, `C27_putenv`, `C27_setenv`, `C27_unsetenv`.
* The code departs from the property: `C27_setenv_equals_violation`, `C27_unsetenv_violation`.
* Proved for every history from every initial environment without duplicate names. With a duplicate name unsetenv leaves the second entry visible, and setenv accepts a name containing '=' and changes the variable before the '='; both witnessed.

### C28 exit runs atexit handlers in reverse order, each exactly once (partial)

* Model: `Stdlib/ExitModel`: the 32 slots.
* Proof: invariant over histories.
* Theorems: `C28_exit_partial`, `C28_quick_exit_partial`, `C28_register`.
* The code departs from the property: `C28_nested_violation`.
* Proved for all handlers registered before exit starts, whatever the handlers do to the table. A handler registered by a handler during exit is accepted but never called (witness proved).

### C29 drand48 family is the POSIX linear congruential generator (proved)

* Model: `Stdlib/Rand48Model`.
* Proof: refinement of the recurrence modulo 2^48.
* Theorems: `C29_array`, `C29_double`, `C29_drand`, `C29_global`, `C29_lcong48`, `C29_seed48`, `C29_srand48`, `C29_state`.

### C30 random() state switching is safe and lossless (proved)

* Model: `Stdlib/RandomModel`: over byte memory.
* Proof: refinement of a pointer-free machine of generators.
* Theorems: `C30_bound`, `C30_call`, `C30_initstate`, `C30_initstate_small`, `C30_random`, `C30_resume`, `C30_setstate`, `C30_srandom`, `C30_start`.
* random, srandom, initstate and setstate over byte memory, refining a pointer-free machine of generators; C30_resume is the switching claim. The lock (try_lock().expect) is not modelled: calls are sequential.

### C31 UTF-8 encode/decode round trip (proved)

* Model: `Wchar/Utf8Model`: `wchar/utf8.rs`, UTF-8 functions of `core`.
* Proof: case analysis with arithmetic over all scalar values.
* Theorems: `C31_mbrtowc`, `C31_round_trip`, `C31_wcrtomb`, `C31_wcrtomb_invalid`.
* all Unicode scalar values; core::str UTF-8 functions written out from their published source.

### C32 Malformed UTF-8 is rejected (proved)

* Model: as C31.
* Proof: case analysis over all byte sequences.
* Theorems: `C32_mbrtowc`, `C32_unique`.
* all byte sequences and limits at least 1.

### C33 Timespec arithmetic is exact (partial)

* Model: `Time/TimespecModel`.
* Proof: integer arithmetic; witnesses.
* Theorems: `C33_add_negative`, `C33_add_normal`, `C33_add_partial`, `C33_deadline_partial`, `C33_subtract_partial`.
* The code departs from the property: `C33_add_negative_violation`, `C33_add_overflow_violation`, `C33_deadline_violation`, `C33_subtract_violation`.
* add exact for non-negative operands with representable sum, subtract exact when no borrow is needed; with a borrow the result is always wrong by twice the missing nanoseconds, sums at the upper end wrap, deadlines are converted wrongly (violation theorems).

### C34 snprintf stays within the buffer, terminates it and reports the full length (partial)

* Model: `Stdio/PrintfModel`: writers and `snprintf`.
* Proof: induction over chunks written.
* Theorems: `C34_return`, `C34_snprintf_partial`, `C34_snprintf_zero`, `C34_sprintf_partial`.
* The code departs from the property: `C34_empty_violation`, `C34_one_violation`.
* Proved for n >= 2 and non-empty output, and for n = 0; for n = 1 and for empty output the code leaves the buffer unterminated (violation theorems). Writer and buffer do not overlap format or arguments.

### C35 printf integer conversions (partial)

* Model: `Stdio/PrintfModel`: the format parser, both passes over the arguments, `fmt_int`, padding.
* Proof: refinement of an independent description of ISO C conversions.
* Theorems: `C35_plain_signed`, `C35_printf_partial`.
* The code departs from the property: `C35_empty_precision_violation`, `C35_octal_precision_violation`, `C35_octal_zero_violation`, `C35_precision_sign_violation`, `C35_space_plus_violation`, `C35_zero_hex_violation`, `C35_zero_left_violation`, `C35_zero_negative_width_violation`, `C35_zero_octal_violation`, `C35_zero_plus_violation`, `C35_zero_precision_plus_violation`, `C35_zero_star_precision_violation`.
* Whole formats (parser, two passes over the arguments, layout) are proved to print what ISO C says for every integer conversion inside Call.SignedOk / Call.UnsignedOk; outside, the code departs from ISO C, shown by one violation theorem per bug. Positional arguments (%1$d) and floating point are not covered.

### C36 Reading from a stream preserves the byte sequence (partial)

* Model: `Stdio/StreamModel`: FILE with buffer, pushed-back bytes, flags; kernel file with arbitrary short reads and errors.
* Proof: refinement of a byte sequence, over all histories.
* Theorems: `C36_fgets`, `C36_fread`, `C36_getc`, `C36_getdelim_partial`, `C36_history`, `C36_new`, `C36_read_all`, `C36_ungetc`.
* The code departs from the property: `C36_getdelim_violation`, `C36_unbuffered_violation`, `C36_ungetc_eof_violation`.
* getc, ungetc, fread, fgets and their arbitrary mixtures (C36_history) for every kernel answer pattern; getdelim proved for streams without pushed-back bytes. ungetc(EOF) pushes 0xff, _IONBF streams read as empty, getdelim ignores pushed-back bytes: violations proved.

### C37 Buffered output reaches the file exactly once and in order (partial)

* Model: as C36, the writers (full, line, unbuffered).
* Proof: refinement of a byte sequence, over all histories.
* Theorems: `C37_fclose`, `C37_fflush`, `C37_fputs`, `C37_fwrite`, `C37_history`, `C37_line_buffered`, `C37_putc`, `C37_puts_partial`.
* The code departs from the property: `C37_fclose_violation`, `C37_putc_violation`, `C37_puts_violation`.
* fwrite, putc, fputs, fflush, fclose for full, line and no buffering, any sequence of calls and any short-write/error pattern. fclose reports lost output by 1 instead of EOF, fputc(-1) returns EOF though the byte was accepted, puts reports success though the kernel accepted nothing of the newline: violations proved.

### C38 fgets returns one line at most and never overruns (partial)

* Model: as C36.
* Proof: loop induction.
* Theorems: `C38_fgets_partial`.
* The code departs from the property: `C38_end_violation`, `C38_newline_violation`, `C38_pushed_back_violation`.
* Proved if nothing was pushed back, or the pushed-back bytes hold no newline, leave room and are followed by more of the file. Otherwise fgets reads past a pushed-back newline, or returns NULL although it stored pushed-back bytes; at the end of the file it overwrites the first byte of the array: violations proved.

### C39 ftell/fseek agree with the stream position (partial)

* Model: as C36.
* Proof: invariant relating offset, buffer and position.
* Theorems: `C39_fseek_partial`, `C39_ftell_read`, `C39_ftell_write`, `C39_seek_cur_partial`, `C39_seek_set`.
* The code departs from the property: `C39_fseek_violation`.
* ftell proved for reading and writing streams; SEEK_SET and SEEK_END proved in full, SEEK_CUR without pushed-back bytes; with them the new position is off by their number (violation).

### C40 Byte order conversions are involutive and big-endian (proved)

* Model: `Net/EndianModel`.
* Proof: byte-list arithmetic.
* Theorems: `C40_host_to`, `C40_inverse`, `C40_to_host`.
* htons/htonl/ntohs/ntohl, htobe/htole/betoh/letoh families, on 64-bit little-endian targets.

### C41 IPv4 text conversions (partial)

* Model: `Net/InetModel` over memory.
* Proof: inverse laws, grammar of the dotted forms.
* Theorems: `C41_addr`, `C41_addr_partial`, `C41_aton`, `C41_aton_partial`, `C41_network`, `C41_ntop`, `C41_ntop_error`, `C41_pton`, `C41_pton_partial`, `C41_roundtrip`.
* The code departs from the property: `C41_makeaddr_violation`, `C41_netof_violation`, `C41_plus_violation`, `C41_pton_violation`, `C41_space_violation`.
* inet_aton, inet_addr, inet_pton(AF_INET) and inet_ntop over memory: every well-formed text accepted with the right bytes, everything else without a + sign refused, text read back for every address. Violated: + signs are accepted; ENOSPC although the text fits; inet_netof is inet_lnaof and works in the wrong byte order, so the parts do not compose.

### C42 Signal sets behave as sets (proved)

* Model: `Signal/SigsetModel`.
* Proof: bit lemmas; refinement of sets over call sequences.
* Theorems: `C42_add`, `C42_del`, `C42_init`, `C42_invalid`, `C42_member`, `C42_sequence`.
* sigemptyset, sigfillset, sigaddset, sigdelset, sigismember, incl. invalid signal numbers and arbitrary call sequences.

### C43 basename/dirname split paths as POSIX prescribes (proved)

* Model: `Path/LibgenModel`.
* Proof: list induction; uniqueness of the split.
* Theorems: `C43_basename`, `C43_dirname`, `C43_null`, `C43_split_unique`.
* basename and dirname for every string and NULL; specification as a split of the path, shown to be unique.

### C44 getopt processes every argument once (partial)

* Model: `Getopt/GetoptModel`: `getopt`, `getopt_long`.
* Proof: refinement of an argument grammar; termination measure.
* Theorems: `C44_getopt_partial`, `C44_long_partial`, `C44_silent`.
* The code departs from the property: `C44_colon_violation`, `C44_long_exact_violation`, `C44_long_unknown_violation`, `C44_long_value_violation`, `C44_message_violation`.
* Proved for short options without a stray '-:'; long options whose name is matched first. Violations: '-:' is accepted as an option (colon), messages despite leading ':' (message), first prefix instead of exact match (long_exact), unknown long names parsed as short options (long_unknown), values ignored for options without argument (long_value).

### C45 Growable C buffer (asprintf) keeps its contents (partial)

* Model: `Util/CVecModel`: `c_vec.rs`, `asprintf`, any sound allocator.
* Proof: invariant over histories.
* Theorems: `C45_asprintf_partial`, `C45_asprintf_text`, `C45_extend`, `C45_new`, `C45_pop`, `C45_push`, `C45_reserve`, `C45_shrink_partial`, `C45_truncate`, `C45_with_capacity`.
* The code departs from the property: `C45_append_violation`, `C45_asprintf_violation`, `C45_shrink_violation`.
* new, with_capacity, reserve, push, extend_from_slice, truncate, pop, and shrink_to_fit of non-empty vectors, for every sound allocator; asprintf with enough memory yields exactly the text. Violated by append (loses the elements), shrink_to_fit of an empty vector (leak) and asprintf without memory (panics).

### C46 Line reader over a descriptor yields the file's lines (partial)

* Model: `Netdb/RlbModel`: `raw_line_buffer`.
* Proof: refinement of line splitting.
* Theorems: `C46_error`, `C46_lines_partial`, `C46_next`, `C46_seek`.
* The code departs from the property: `C46_last_violation`.
* RawLineBuffer over a kernel that delivers the file in arbitrary parts: every line once, in order, with its offset (C46_next, C46_lines_partial); seek and errors. Violated for a last line without newline, which is returned again by every further call (C46_last_violation).

### C47 DNS messages survive compile/parse, parsing always terminates (partial)

* Model: `Dns/DnsModel`: `netdb/dns/*`, partial fixpoint for the name parser.
* Proof: round trip; divergence by partial correctness.
* Theorems: `C47_compile_partial`, `C47_no_panic`, `C47_parse_partial`, `C47_roundtrip_partial`, `C47_terminates_partial`.
* The code departs from the property: `C47_answers_violation`, `C47_loop_violation`, `C47_root_violation`, `C47_suffix_violation`.
* Messages in the RFC 1035 format (labels, or a lone backward pointer) are parsed exactly (C47_parse_partial), compile emits that format for queries and parse reads it back, no packet makes parse panic, and it ends on all packets without pointer bytes. Disproved: self-pointer loops for ever, a label followed by a pointer is misread, the root name gets an extra zero byte, answers are counted but not emitted.

### C48 Allocation-size arithmetic never wraps (proved)

* Model: `Stdlib/AllocModel`: malloc family, allocator crate by contract.
* Proof: arithmetic; fit of the result by the contract.
* Theorems: `C48_aligned_alloc`, `C48_calloc`, `C48_posix_memalign`, `C48_reallocarray`, `C48_reallocarray_null`.
* allocator crate (dlmalloc) is a parameter with a stated contract, inhabited by two instances.

### C49 Character classification is consistent (proved)

* Model: `Ctype/Model`: tables for all `c_int`.
* Proof: arithmetic on the whole of `Int32`.
* Theorems: `C49_isalnum`, `C49_isalpha`, `C49_isblank`, `C49_iscntrl`, `C49_isdigit`, `C49_isgraph`, `C49_islower`, `C49_isprint`, `C49_ispunct`, `C49_isspace`, `C49_isupper`, `C49_isxdigit`, `C49_partition`, `C49_toascii`, `C49_tolower`, `C49_toupper`.

### C50 Case-insensitive comparison is an equivalence (partial)

* Model: `Ctype/*`, `Str/StrModel`.
* Proof: loop induction.
* Theorems: `C50_equal`, `C50_equal_n`, `C50_order`, `C50_strcasecmp_partial`, `C50_strncasecmp_partial`.
* The code departs from the property: `C50_order_violation`.
* Equality up to letter case, ASCII order and the total-order laws are proved for all strings; the order of strings with bytes >= 128 is wrong (signed comparison), shown by C50_order_violation.

### C51 ffs/ffsl/ffsll, bcmp, index and friends (proved)

* Model: `Ctype/Model`.
* Proof: bit lemmas.
* Theorems: `C51_ffs`, `C51_ffs_dvd`.

### C52 Cancellation requests are not lost (proved)

* Model: `Sync/CancelModel`: cancellation flags, signal handler.
* Proof: inductive invariant.
* Theorems: `C52_enable_sees_request`, `C52_request_not_lost`, `C52_request_remembered`.

### C53 Wide string functions mirror the narrow ones (partial)

* Model: `Str/WideModel`.
* Proof: loop induction, as C17 to C22.
* Theorems: `C53_wcpcpy`, `C53_wcpncpy`, `C53_wcscat`, `C53_wcschr`, `C53_wcscmp_partial`, `C53_wcscpy`, `C53_wcscspn`, `C53_wcsdup`, `C53_wcslen`, `C53_wcsncat`, `C53_wcsncmp_equal`, `C53_wcsncmp_partial`, `C53_wcsncpy`, `C53_wcsnlen`, `C53_wcspbrk`, `C53_wcsrchr_partial`, `C53_wcsspn`, `C53_wcsstr`, `C53_wcstok`, `C53_wmemchr`, `C53_wmemcmp_partial`, `C53_wmemcpy`, `C53_wmemmove`, `C53_wmemset`.
* The code departs from the property: `C53_wcscmp_violation`, `C53_wcsrchr_nul_violation`.
* All wide functions proved except: wcsrchr(ws, 0) returns NULL (C53_wcsrchr_nul_violation) and the wcscmp/wmemcmp difference wraps for far-apart elements (C53_wcscmp_violation).

### C54 wcstol family: value, end pointer and errno (partial)

* Model: `Stdlib/WcstolModel`.
* Proof: refinement of the numeral grammar of C23.
* Theorems: `C54_overflow_partial`, `C54_wcstol_partial`, `C54_wcstoul_partial`.
* The code departs from the property: `C54_hex_violation`, `C54_no_conversion_violation`, `C54_overflow_violation`.
* Proved for numerals whose value is representable. On overflow errno is right but the end pointer is not stored and the signed functions return -1; without a numeral, or with a dangling 0x, the end pointer is wrong. Each has a violation theorem with a witness.

### C55 fd_set and select report exactly the ready descriptors (partial)

* Model: `Poll/SelectModel`: `select` through epoll; kernel by contract.
* Proof: set algebra; witnesses.
* Theorems: `C55_forever`, `C55_range`, `C55_select_partial`, `C55_timeout_partial`.
* The code departs from the property: `C55_count_violation`, `C55_failure_violation`, `C55_hup_violation`, `C55_many_violation`, `C55_round_violation`, `C55_timeout_violation`, `C55_unrequested_violation`.
* Proved when fewer than 32 descriptors are ready, without hangups and errors. Violations: 32-event limit (many), hangup not readable (hup), exceptfds gets descriptors not asked for (unrequested), files in two sets counted once (count), sets changed on failure (failure), timeout rounding and truncation.

### C56 Lifetime of the thread control block (partial)

* Model: as C14.
* Proof: witness execution; invariant.
* Theorems: `C56_not_released_before_exit_partial`.
* The code departs from the property: `C56_late_detach_leaks_violation`, `C56_use_after_free_violation`.
* False for this code: the exiting thread touches the control block after a joiner may have released it, and a late detach leaks it (witnesses proved). Proved: not released before the thread publishes its result.

### C57 Disabled cancellation is respected (partial)

* Model: as C52.
* Proof: witness execution; invariant.
* Theorems: `C57_disabled_respected_partial`.
* The code departs from the property: `C57_cancelled_while_disabled_violation`.
* False for this code: the signal handler does not look at the enabled flag (witness proved). All other paths respect it.

### C58 The Rust global allocator keeps the old block when realloc fails (partial)

* Model: `Stdlib/AllocModel`.
* Proof: case analysis.
* Theorems: `C58_global_realloc_partial`.
* The code departs from the property: `C58_global_realloc_violation`.
* holds for alignment at most 16; above that realloc frees the old block although it reports failure (violation).

### C59 Conversion between multibyte and wide strings (partial)

* Model: `Wchar/*`: `mbsnrtowcs`, `wcsnrtombs` and callers.
* Proof: loop induction against the UTF-8 specification of C31.
* Theorems: `C59_mbsnrtowcs`, `C59_mbsnrtowcs_bytes`, `C59_mbsnrtowcs_count_partial`, `C59_mbsnrtowcs_truncated`, `C59_wcsnrtombs`, `C59_wcsnrtombs_count_partial`, `C59_wcsnrtombs_invalid`, `C59_wcsnrtombs_truncated`.
* The code departs from the property: `C59_mbsrtowcs_error_violation`, `C59_mbsrtowcs_src_violation`, `C59_wcsrtombs_src_violation`.
* characters, counts, *src, truncation and invalid input proved for a destination; mbsnrtowcs returns 1 for an invalid sequence, null-destination calls change *src, counts partial (violations).

### C60 mbrtowc decodes a character supplied in pieces (partial)

* Model: as C31.
* Proof: case analysis; witness.
* Theorems: `C60_restart_partial`.
* The code departs from the property: `C60_restart_violation`.
* mbstate_t is empty, so only whole characters decode; a split character is reported as -2 and then -1 (violation).

### C61 Single-character conversion functions (partial)

* Model: as C31.
* Proof: case analysis.
* Theorems: `C61_btowc`, `C61_mblen`, `C61_mbtowc_partial`, `C61_wctomb`.
* The code departs from the property: `C61_mbtowc_violation`.
* mblen, wctomb, btowc, wctob exact; mbtowc returns -2 for an incomplete character (violation).

### C62 printf text conversions, width, precision and %n (partial)

* Model: `Stdio/PrintfModel`.
* Proof: as C35.
* Theorems: `C62_null`, `C62_printf_text`, `C62_snprintf`, `C62_wide_partial`.
* The code departs from the property: `C62_unterminated_violation`, `C62_wide_precision_violation`.
* Full for %%, %c, %s, %n and text; %ls only without precision (with one the code cuts a character too many, violation theorem); %s of an unterminated array faults (violation theorem).

### C63 sigprocmask changes the signal mask and loses no signal (proved)

* Model: `Signal/MaskModel`: the packed signal words of redox-rt, other threads act before every atomic access.
* Proof: bit-vector lemmas, interference as arbitrary relation.
* Theorems: `C63_always_deliverable`, `C63_bad_how`, `C63_query`, `C63_sigprocmask`.
* With signals posted by other threads before each atomic access; the trampoline itself (assembly) is not modelled, only that it is entered.

### C64 Waiting calls leave the signal mask as they found it (partial)

* Model: as C63.
* Proof: bit-vector lemmas; witnesses for the carry.
* Theorems: `C64_sigsuspend_partial`, `C64_sigwait_partial`.
* The code departs from the property: `C64_sigsuspend_violation`, `C64_sigwait_violation`.
* Proved for temporary masks whose SIGKILL/SIGSTOP bits already agree; otherwise violated (C64_sigsuspend_violation, C64_sigwait_violation): restoring the mask adds a difference computed from the wrong current value, and carries corrupt other signals' bits.

### C65 Allocated blocks behave as private arrays (proved)

* Model: `Stdlib/AllocModel`, heap of live blocks (`HeapProps`).
* Proof: invariant over histories, allocator by contract.
* Theorems: `C65_history`, `C65_step`.
* Assumes the contract Allocator.Sound of the dlmalloc crate (not modelled itself).

### C66 Buffered output of every stream is delivered at exit and by fflush(NULL) (partial)

* Model: `Stdio/StreamModel`.
* Proof: induction over the streams; witnesses.
* Theorems: `C66_exit_partial`.
* The code departs from the property: `C66_exit_violation`, `C66_fflush_violation`.
* stdout and stderr are flushed; every other stream is skipped by exit and by fflush(NULL): violations proved.

### C67 A stream on a seekable file behaves like a file with a position (proved)

* Model: as C36.
* Proof: refinement of a byte array with a position, over all histories.
* Theorems: `C67_file`.
* Refinement of a byte array with a position for every sequence of getc, putc, fread, fwrite, fputs, fseek, ftell and fflush with a seek or flush between the modes, in the program's memory too. Kernel errors are covered call by call in C36 and C37; O_APPEND is not modelled.

### C68 feof and ferror report exactly what happened (partial)

* Model: as C36.
* Proof: case analysis per call.
* Theorems: `C68_clearerr`, `C68_fflush`, `C68_fseek`, `C68_getc`, `C68_putc`, `C68_putc_error`.
* The code departs from the property: `C68_getdelim_violation`, `C68_line_violation`, `C68_ungetc_violation`.
* getc, clearerr, fseek, putc, fflush proved; ungetc keeps end-of-file set, getdelim clears all other flags including the one marking stdin static, and a line the kernel refuses is not recorded on a line-buffered stream: violations proved.

### C69 Network database enumeration and lookup (partial)

* Model: `Netdb/EntModel`: get…ent and lookups over C46.
* Proof: refinement of the list of entries.
* Theorems: `C69_accept`, `C69_enumerate_partial`, `C69_fields`, `C69_get`, `C69_lookup_partial`, `C69_protobyname_partial`.
* The code departs from the property: `C69_comment_violation`, `C69_last_violation`, `C69_panic_violation`, `C69_protobyname_violation`, `C69_rewind_violation`.
* Enumeration and searches over the line reader for all four databases. Missing, each disproved: set…ent after the file was closed does not rewind (networks, protocols, services); an unterminated last line is returned for ever or hangs the call if it is a comment; one-field lines panic; getprotobyname loops for ever if the file stays open and the first entry is not the one wanted. getservent takes a commented-out service for an entry (example).

### C70 poll reports every entry (partial)

* Model: `Poll/PollModel`: `poll` through epoll; kernel by contract.
* Proof: induction over entries; witnesses.
* Theorems: `C70_poll_partial`, `C70_timeout_partial`.
* The code departs from the property: `C70_closed_violation`, `C70_file_violation`, `C70_many_violation`, `C70_round_violation`, `C70_timeout_violation`, `C70_twice_violation`.
* Proved for returns with fewer than 32 entries to report. Violations: 32-event limit (many), same descriptor twice fails (twice), regular files fail (file), waits although an entry is closed (closed), timeout rounding and overflow.

### C71 fnmatch matches as POSIX says (partial)

* Model: `Fnmatch/FnmatchModel`: tokenizer over memory; regex crate by contract.
* Proof: induction on the pattern, against an independent matching relation.
* Theorems: `C71_fnmatch_partial`.
* The code departs from the property: `C71_bracket_violation`, `C71_class_violation`, `C71_component_violation`, `C71_escape_violation`, `C71_overread_violation`, `C71_period_violation`, `C71_slash_violation`.
* Patterns of literals, ?, * and bracket expressions without special characters, all flags (C71_fnmatch_partial; regex crate by contract). Disproved: escape flag inverted, leading * with FNM_PERIOD, *.c matching .c, [!a] matching a slash, ] first in brackets, character classes, read beyond the pattern for an unfinished escape.

### C72 readv and writev move the bytes in order (proved)

* Model: `Uio/UioModel`.
* Proof: induction over the buffers.
* Theorems: `C72_range`, `C72_readv`, `C72_writev`.
* For all arrays of disjoint buffers; the kernel's read and write are a function. NULL arrays and a negative count are not modelled.

### C73 A directory stream gives every entry once, and telldir/seekdir come back (partial)

* Model: `Dir/DirModel`: both platforms' getdents.
* Proof: refinement of the list of entries.
* Theorems: `C73_dirent_partial`.
* The code departs from the property: `C73_error_violation`.
* Proved on both platforms for a directory that does not change and calls of getdents that do not fail (C73_dirent_partial). After a failed getdents the stream is broken for ever (C73_error_violation), so the last part of the property does not hold.

### C74 sigaction and signal report and keep each signal's action (partial)

* Model: `Signal/ActionModel`: packed action words.
* Proof: refinement of a map of dispositions, over call sequences.
* Theorems: `C74_discard`, `C74_inherit`, `C74_sigaction`.
* The code departs from the property: `C74_siginterrupt_violation`.
* Model: SigactionModel of the packed action words (Signal/ActionModel). C74_sigaction (all call sequences against a map of dispositions), C74_discard, C74_inherit. Partial because siginterrupt with flag != 0 panics (C74_siginterrupt_violation). Handler addresses below 2^57.

### C75 While a handler runs the mask is as sigaction promised, and it is restored afterwards (partial)

* Model: `Signal/ActionModel`: delivery, with interference.
* Proof: bit-vector lemmas, interference as arbitrary relation.
* Theorems: `C75_handler_called`, `C75_handler_mask`.
* The code departs from the property: `C75_context_violation`, `C75_ignore_violation`, `C75_internal_violation`, `C75_resethand_violation`.
* C75_handler_mask: mask inside and after the handler and pending signals, under arbitrary interference; C75_handler_called: SA_SIGINFO, SA_RESETHAND without concurrent sigaction. Violated: SA_RESETHAND and SIG_IGN/SIG_DFL races (C75_resethand_violation, C75_ignore_violation), uc_sigmask is the complement (C75_context_violation), sa_mask can block the cancellation signal (C75_internal_violation). The assembly trampoline is not modelled.

### C76 sigaltstack reports and keeps the alternate stack, and never changes one in use (proved)

* Model: `Signal/WaitModel`.
* Proof: refinement of the abstract stack.
* Theorems: `C76_sigaltstack`.
* C76_sigaltstack: every call sequence against the abstract stack (Option (base, size)); hypothesis: base + size within the address space.

### C77 sigwait, sigwaitinfo and sigtimedwait take exactly one pending signal of the set (partial)

* Model: `Signal/WaitModel`, with interference.
* Proof: bit-vector lemmas.
* Theorems: `C77_error`, `C77_immediate`, `C77_process`, `C77_taken`.
* The code departs from the property: `C77_sigwait_violation`.
* C77_taken, C77_process, C77_error, C77_immediate for arbitrary interference (process-pending claims with the process word otherwise quiet). Violated: sigwait returns -1 without a signal when another thread takes the signal that woke it (C77_sigwait_violation).

### C78 sscanf stores the right values and types (partial)

* Model: `Scanf/ScanfModel`: the whole of `scanf.rs` for narrow characters.
* Proof: induction over the format; matching against an independent relation between input and values.
* Theorems: `C78_match_partial`, `C78_types`.
* The code departs from the property: `C78_count_size_violation`, `C78_count_violation`, `C78_end_violation`, `C78_exponent_violation`, `C78_hang_violation`, `C78_hex_prefix_violation`, `C78_hex_zero_violation`, `C78_negative_violation`, `C78_no_number_violation`, `C78_set_violation`, `C78_string_width_violation`, `C78_tab_violation`, `C78_utf8_violation`, `C78_width_violation`.
* C78_types: safety for all inputs. C78_match_partial: values for inputs that fit; the witnesses C78_*_violation show what the code gets wrong (negative numbers, widths, end of input, 0x, %n, sets without match, unfinished sets).

### C79 dlsym and symbol references find the first definition in scope order (partial)

* Model: `Ldso/LinkModel`: loading, scopes, lookup; files as an environment.
* Proof: invariant over all sequences of dlopen and dlclose.
* Theorems: `C79_default_partial`, `C79_global`, `C79_handle_partial`, `C79_reference_partial`.
* The code departs from the property: `C79_deps_violation`, `C79_failed_violation`, `C79_global_first_violation`, `C79_null_violation`, `C79_weak_violation`.
* Proved: the global scope consists of the objects loaded with the program, each once, the program first (C79_global); RTLD_DEFAULT, handles and references find the first global definition, else the only weak one (C79_default_partial, C79_handle_partial, C79_reference_partial), for programs that open with RTLD_LOCAL. The code violates the rest: of several weak definitions the last wins, a handle does not see indirect dependencies, the handle of dlopen(NULL) does not see the program's libraries, a failed RTLD_GLOBAL dlopen makes the next lookup panic, a weak definition of the global scope beats a library's own global one.

### C80 Objects are initialised after the objects they need, each once (partial)

* Model: `Ldso/LinkModel`.
* Proof: induction over the dependency graph.
* Theorems: `C80_dlopen_partial`, `C80_program_partial`, `C80_success`.
* The code departs from the property: `C80_cycle_violation`, `C80_libc_violation`, `C80_path_violation`.
* Proved for dependency graphs without cycles whose files are named by their soname. The code violates the rest: cycles overflow the stack, a library opened by two paths is loaded twice, libc.so and libc.so.6 are initialised separately.

### C81 dlclose never unloads an object in use (partial)

* Model: `Ldso/LinkModel`: reference counts counted from the state.
* Proof: invariant over all sequences of dlopen and dlclose.
* Theorems: `C81_handle`, `C81_in_use_partial`, `C81_no_panic`, `C81_program`, `C81_unloaded`.
* The code departs from the property: `C81_global_violation`, `C81_leak_violation`, `C81_noload_violation`.
* Proved for programs that open with RTLD_LOCAL; handles, the program's own objects and absence of panics without that restriction. The code violates the rest: RTLD_GLOBAL libraries shared by two others are unloaded while in use, RTLD_LOCAL ones leak, RTLD_NOW|RTLD_NOLOAD panics.

### C82 Destructors run once, in the reverse order (partial)

* Model: `Ldso/LinkModel`: log of constructor and destructor calls.
* Proof: invariant; witnesses.
* Theorems: `C82_fini_once`.
* The code departs from the property: `C82_close_violation`, `C82_exit_violation`.
* Once and never before the constructors: proved. The order is wrong in the code, at exit and in dlclose (violation theorems).

### C83 Every thread has its own copy of every thread-local variable (partial)

* Model: `Ldso/TlsModel`: masters, dtv, thread areas over memory, any threads.
* Proof: invariant over all sequences of operations; witnesses.
* Theorems: `C83_main_apart_partial`, `C83_main_partial`, `C83_new_thread`, `C83_stable`, `C83_start`, `C83_static`.
* The code departs from the property: `C83_align_violation`, `C83_create_violation`, `C83_existing_violation`, `C83_failed_violation`, `C83_overlap_violation`, `C83_threads_violation`.
* Blocks of the modules present at start are right in all threads (C83_static, C83_new_thread, C83_start), addresses never move (C83_stable); modules opened later only for the first thread when no other thread opens libraries and no dlopen fails (C83_main_partial, C83_main_apart_partial). Violations with witnesses: a thread created after two TLS libraries were opened has both at one place, or creation panics; existing threads get NULL; two threads opening libraries mix up modules; a failed dlopen shifts module ids; p_align is ignored.

### C84 Packed relative relocations adjust exactly the words they name (proved)

* Model: `Ldso/MapModel`: `apply_relr`.
* Proof: induction over table and bits.
* Theorems: `C84_ok`, `C84_relr`.
* Declarative description of the table (Names); each named word relocated once, nothing else changed, success when mapped.

### C85 Loaded segments have the contents and protections of the file (partial)

* Model: `Ldso/MapModel`: bounds, copying, `mprotect`.
* Proof: induction over the headers.
* Theorems: `C85_mapped_partial`, `C85_prot_partial`, `C85_wx`.
* The code departs from the property: `C85_align_violation`, `C85_base_violation`, `C85_shared_page_violation`.
* C85_wx holds always. C85_mapped_partial for non-zero alignments and position independent objects whose lowest segment is at 0; C85_prot_partial for pages with one segment. Violations: alignment 0 panics, other lowest address fails, a shared page has the last protection.

### C86 Libraries are looked for in the documented places and order (partial)

* Model: `Ldso/MapModel`: `search_object`.
* Proof: list lemmas.
* Theorems: `C86_none`, `C86_path_partial`, `C86_search_partial`, `C86_sound`.
* The code departs from the property: `C86_cwd_violation`, `C86_order_violation`, `C86_slash_violation`.
* C86_sound and C86_none hold always; the order (C86_search_partial, C86_path_partial) only when the current directory has no such file and not both paths are given. Violations: current directory first, run path before LD_LIBRARY_PATH, missing path looked for below the directories.

### C87 Users are found in the user database (partial)

* Model: `Users/PwdModel`: file as bytes, line parsing, caller's buffer, reader state.
* Proof: induction over the lines; refinement to a position; witnesses.
* Theorems: `C87_bounds`, `C87_getpwent_partial`, `C87_getpwnam_partial`, `C87_getpwnam_r_partial`, `C87_getpwuid_partial`, `C87_getpwuid_r_partial`.
* The code departs from the property: `C87_big_violation`, `C87_comment_violation`, `C87_earlier_violation`, `C87_getpwent_violation`, `C87_overrun_violation`, `C87_range_violation`, `C87_stale_violation`.
* Right when all lines up to the wanted one are well-formed (ids below 2^31, since uid_t is int). Violations proved: a comment or malformed line, or an id above 2^31, ends the search and ends getpwent early; the _r functions return -1 instead of ERANGE; they fail if an earlier user does not fit the buffer; missing fields are taken from stale bytes of the caller's buffer; a line one field short gives a pw_shell pointing behind the allocation.

### C88 Groups are found in the group database (partial)

* Model: `Users/GrpModel`: file as bytes, layout of the entry with its pointers, UTF-8 validity as a parameter.
* Proof: induction over the lines and members; witnesses, one for all groups of more than 4096 members.
* Theorems: `C88_getgrent_partial`, `C88_getgrgid_partial`, `C88_getgrgid_r_partial`, `C88_getgrnam_partial`, `C88_getgrnam_r_partial`, `C88_getgrouplist_partial`.
* The code departs from the property: `C88_align_violation`, `C88_comment_violation`, `C88_getgrnam_r_violation`, `C88_getgrnam_violation`, `C88_getgrouplist_violation`, `C88_many_violation`, `C88_noid_violation`, `C88_order_violation`, `C88_panic_violation`, `C88_range_violation`.
* Lookup by id right for well-formed lines with at most 4096 members; lookup by name only if no earlier name is a prefix of the other. Violations proved: getgrnam matches prefixes in both directions; getgrnam_r returns ENOENT and leaves *result unset if absent, EINVAL for a small buffer; malformed lines end the search; pointers after the 4096th member are not adjusted; gr_mem unaligned; getgrouplist omits the given group and panics on malformed lines.

### C89 Password entries are found by exact name (partial)

* Model: `Users/ShadowModel`: file as bytes, caller's buffer, reader state.
* Proof: induction over the lines; witnesses.
* Theorems: `C89_getspent_partial`, `C89_getspnam_partial`, `C89_getspnam_r_partial`.
* The code departs from the property: `C89_malformed_violation`, `C89_order_violation`, `C89_prefix_violation`.
* Right if no earlier line begins with the name. Violations proved: prefix match (getspnam("b") finds bob, getspnam("") the first entry, bob may get bobby's password); a malformed line ends getspnam_r and getspent.

### C90 inet_pton reads IPv6 addresses (partial)

* Model: `Net/Inet6Model`: the counts, `find`/`rfind`, chunks, words, octets, over memory.
* Proof: induction over the words; inversion of the loops; witnesses.
* Theorems: `C90_accept_partial`, `C90_bounds`, `C90_family`, `C90_refuse_partial`.
* The code departs from the property: `C90_accept_violation`, `C90_colon_violation`, `C90_dots_violation`, `C90_plus_violation`.
* Bounds and the family check are proved in full. Acceptance excludes addresses with :: for a single group at an end (refused by the code), refusal excludes texts with +, with dots in front of a colon, and with a single colon at an end (accepted by the code); all four are shown by witnesses. Zeros in front of the octets of the dotted quad are not allowed by the specification used.

### C91 Calendar conversions agree with the Gregorian calendar and with each other (partial)

* Model: `Verif/Time/CalendarModel.lean`: gmtime_r, localtime_r, mktime, timegm, timelocal, difftime, datetime_to_tm, set_timezone. The crates chrono and chrono-tz are not in the repository: dates are modelled as the proleptic Gregorian calendar their documentation promises, a time zone as arbitrary functions for offset, daylight saving time, abbreviation and inverse mapping..
* Proof: The calendar is related to the POSIX formula by arithmetic on years, and day-of-year to month and day by induction over the table of months. A zone is only assumed to have offsets of less than a day and an inverse mapping that gives all moments with a local time (`Zone.Faithful`); Berlin and Lord Howe are proved to be such zones..
* Theorems: `C91_difftime_partial`, `C91_gmtime_partial`, `C91_localtime_partial`, `C91_mktime_partial`, `C91_mktime_roundtrip_partial`, `C91_roundtrip_partial`, `C91_timegm_partial`, `C91_timelocal_partial`.
* The code departs from the property: `C91_difftime_violation`, `C91_gap_violation`, `C91_gmtime_violation`, `C91_isdst_violation`, `C91_normalise_violation`, `C91_range_violation`, `C91_zone_violation`.
* Proved for times within 250000 years of the Epoch: fields, day of the week and of the year and the value by the POSIX formula for localtime in any zone and for gmtime with TZ being UTC; timegm and mktime for fields in range; both round trips (mktime: in zones whose daylight saving time is a whole number of hours). Violations found: gmtime uses the time zone of TZ; mktime and timegm refuse fields out of range instead of normalising them and refuse local times in the gap; daylight saving time of less than an hour is reported as 0 and mktime then returns another moment; for times beyond chrono's range the result pointer is returned with nothing written; tm_zone is the zone's name, daylight is always 0, timezone includes daylight saving time; difftime wraps around.

### C92 asctime writes the 26 bytes of the standard and never more (proved)

* Model: `Time/FormatModel`: the assertions, the slices and the unbounded writer over memory.
* Proof: digits of numbers by arithmetic; the writer by induction over the slices.
* Theorems: `C92_bounds`, `C92_text`.
* Proved in full: exact text for normal fields and years 1000 to 9999, bound of 26 bytes for every structure the function does not abort on.

### C93 strftime writes what the format describes and stays within the buffer (partial)

* Model: `Time/FormatModel`: format loop, conversions, nl_langinfo's table, Rust's integer formatting, the bounded writer over memory. The floating-point sum in weeks_per_year is exact arithmetic (argued there).
* Proof: induction over the format with a composition lemma for pieces of a format (`Emits`), one lemma per conversion; witnesses.
* Theorems: `C93_bounds`, `C93_text_partial`.
* The code departs from the property: `C93_century_violation`, `C93_const_violation`, `C93_empty_violation`, `C93_unknown_violation`, `C93_week_violation`, `C93_year_violation`.
* Bounds and return value proved for every format and structure (with tm_zone a string); text proved for all formats over the conversions % n t a A b h B y Y m d e j H k I l M S p P u w z Z D x F R T X r (also with E and O), %C in the first year of a century, %U and %W from week 10, for years 1900 to 9999. Violations found: %C of 2024 is 21; %U, %W have no leading zero; %V of 1 January 2024 is 52; %c, %G, %g are unknown and make the call return 0; %y of 1850 is -50; nothing is written for an empty text in a buffer of one byte or an empty format; %s changes the caller's structure.

### C94 tzset takes names and offset from TZ (partial)

* Model: `Time/TzModel`: PosixTz::parse with its helpers over lists of characters and 32-bit arithmetic, the choice between TZ, /etc/localtime and UTC, tzset. chrono-tz is a parameter: an arbitrary partial function from names to zones.
* Proof: lemmas for splitting at a character and for runs of letters; each form of an offset by arithmetic; witnesses.
* Theorems: `C94_bounded`, `C94_default_partial`, `C94_posix_partial`, `C94_zone_partial`.
* The code departs from the property: `C94_day_violation`, `C94_link_violation`, `C94_quoted_violation`, `C94_sign_violation`, `C94_summer_violation`.
* Proved for the values of TZ that POSIX defines, except that offsets between -1:00 and 0:00 lose their sign, offsets beyond 24:00 are cut, and names in angle brackets and a leading colon are not understood (violations). For names of the database (a parameter of the model) only zones without daylight saving time are right: otherwise daylight, standard name and offset depend on the time of the call, and in the hour skipped in spring tzname is null (violation). A link of 100 bytes or more is read beyond the buffer (violation).

### C95 strptime accepts exactly what the format describes (partial)

* Model: `Time/StrptimeModel`: UTF-8 check, slices that panic in the middle of a character, all conversions, nested formats.
* Proof: one induction over the format for soundness (`loop_sound`) and one over the derivation of the text for completeness (`loop_complete`); witnesses.
* Theorems: `C95_reads_partial`, `C95_sound`.
* The code departs from the property: `C95_failure_violation`, `C95_literal_violation`, `C95_name_violation`, `C95_order_violation`, `C95_space_violation`, `C95_unknown_violation`, `C95_utf8_violation`.
* Soundness holds in full for formats in ASCII. That texts are accepted is proved for the texts strptime can recognize (Ends); violations: white space in the format has to match exactly, %a does not take full names, %p before %I is lost, many conversions are unknown, formats beyond ASCII can crash, input has to be UTF-8 to its end, fields are changed on failure.

### C96 strptime reads back what strftime writes (partial)

* Model: the models of C93 and C95.
* Proof: every conversion's text is shown to be one that strptime takes (`piece_all`), and formats are composed by induction over their layout; then C93's and C95's theorems are combined.
* Theorems: `C96_roundtrip_partial`.
* The code departs from the property: `C96_adjacent_violation`, `C96_blank_violation`.
* Proved for the conversions Y m d H M S j a A b B h F T with separators between them. Violations: %e is not read back, nor are conversions strptime does not know; without separators %Y takes all digits.

### C97 glob finds exactly the matching pathnames (partial)

* Model: `Verif/Glob/GlobModel.lean`: `glob`, `globfree`, `list_dir`, `inner_glob`, over a parameter for `opendir`/`readdir`/`stat`, with the model of `fnmatch` of C71. Not modelled: allocation failure, the file descriptor that `list_dir` leaves open when it aborts inside its loop..
* Proof: Relation `Found` defined by recursion on the sections; `inner_glob` is shown to list exactly this relation by induction on the sections, with C71 for each name; distinctness because entries without slashes determine the beginning of a path; sortedness from `mergeSort`..
* Theorems: `C97_glob_partial`, `C97_globfree_partial`.
* The code departs from the property: `C97_append_violation`, `C97_dots_violation`, `C97_empty_violation`, `C97_err_violation`, `C97_free_violation`, `C97_hidden_violation`, `C97_slash_violation`.
* Proved for patterns of nonempty sections without '.', '..' and trailing slash, for an errfunc that returns 0 and without GLOB_ERR and GLOB_PERIOD, if no section begins with a wildcard or there are no hidden files. Violations: wildcards match hidden files (GLOB_PERIOD is handed on as FNM_PERIOD, the wrong way round), 'b/' finds files, '.', '/' and 'a/../b' find nothing, GLOB_ERR aborts on dangling links and on missing directories, GLOB_NOCHECK ignores the empty pattern, GLOB_APPEND after an empty pattern reads a null pointer, globfree leaves gl_offs strings.

### C98 Registered destructors run once, newest first, per object (partial)

* Model: `Handlers/HandlerModel`: `cxa.rs`, functions as numbers, a predicate says which register others; the lock and the borrow as deadlock and panic. Nothing in relibc calls `__cxa_finalize` at exit; that is left to the start files.
* Proof: refinement of the list of pending functions, over all sequences of calls; witnesses.
* Theorems: `C98_finalize_partial`, `C98_once_partial`, `C98_thread_partial`.
* The code departs from the property: `C98_reentry_violation`, `C98_thread_violation`.
* Partial: proved for functions that do not register others; violations: such a function deadlocks in __cxa_finalize, and panics in __cxa_thread_finalize.

### C99 Cleanup handlers form a stack that is run when the thread ends (proved)

* Model: `Handlers/HandlerModel`: entries in memory, linked through `prev`.
* Proof: the linked list represents the stack, invariant over all sequences.
* Theorems: `C99_cleanup`.
* Proved, for paired calls.

### C100 Fork handlers run around fork in their order (partial)

* Model: `Handlers/HandlerModel`: the hooks of each thread, `fork` with the kernel's answer as a parameter.
* Proof: induction over the registrations; witnesses.
* Theorems: `C100_fork_partial`.
* The code departs from the property: `C100_order_violation`, `C100_thread_violation`.
* Partial: parent and child handlers of the forking thread in order; violations: prepare handlers run in order of registration, and handlers of other threads are not run.

### C101 Attribute objects keep what was set (partial)

* Model: `Attr/AttrModel`: records with the machine types of the fields.
* Proof: one induction over sequences of calls for all objects (`runCalls_spec`), case analysis per setter; witnesses.
* Theorems: `C101_barrier_partial`, `C101_mutex_init`, `C101_mutex_partial`, `C101_spawn`, `C101_stacksize`, `C101_thread_partial`.
* The code departs from the property: `C101_cond_violation`, `C101_flags_violation`, `C101_guardsize_violation`, `C101_mutex_violation`, `C101_rwlock_violation`.
* Partial: threads (guard size below 2^31), mutexes (defined values), barriers, spawn attributes fully; violations: guard size is truncated to int, undefined mutex types are accepted, the setters of condition variable and read-write lock attributes have no effect, the flags of posix_spawn are not distinct bits.

### C102 Programs are found along PATH (partial)

* Model: `Exec/ExecModel`: splitting of PATH, the loops of `execvp` and `posix_spawnp`; `execve`, `access` and `posix_spawn` are parameters.
* Proof: induction over the directories; witnesses.
* Theorems: `C102_execvp_partial`, `C102_slash`, `C102_spawnp_partial`, `C102_unset`.
* The code departs from the property: `C102_empty_violation`, `C102_spawnp_violation`.
* Partial: all values of PATH without empty elements; violations: an empty element means the root directory, posix_spawnp stops at a file that exists but cannot be executed.

### C103 execl passes exactly its arguments (proved)

* Model: `Exec/ExecModel`: `with_argv`, arguments as a list, the array with uninitialised elements.
* Proof: induction over the arguments.
* Theorems: `C103_args`.
* Proved, for argument lists ended by a null pointer.

### C104 posix_spawn starts the program with the requested state (partial)

* Model: `Exec/SpawnModel`: `posix_spawn` and `Sys::spawn` of Redox, kernel as parameters; interpreters, loading and relibc's own descriptors are left out.
* Proof: simulation of the specified child by the model's, over all sequences of actions; witnesses.
* Theorems: `C104_add`, `C104_noargs`, `C104_spawn_partial`.
* The code departs from the property: `C104_argv_violation`, `C104_attr_violation`, `C104_cloexec_violation`, `C104_cwd_violation`, `C104_setuid_violation`.
* Partial, for Redox (Linux has no posix_spawn): actions with unchanged strings, absolute directories, fchdir to descriptors of the parent, targets not FD_CLOEXEC in the parent; one of RESETIDS, SETPGROUP (positive), SETSIGMASK. Violations: duplicated descriptors closed by the parent's flags, O_CLOEXEC ignored, fchdir on the parent's descriptor, relative chdir, strings read late, argv[0] replaced, process group 0, default signals, scheduling, set-user-ID without attributes.

### C105 A program is started with the arguments, environment and state given to exec (proved)

* Model: `Verif/Exec/StartModel.lean`: the closures `push` and `append` of `fexec_impl` as state changes on (words of the stack, memory of the new program, offset); `Stack::argv/envp/auxv`, `copy_string_array`, `auxv_iter`, `get_auxvs` (sorting), `get_auxv` (binary search), the part of `init` which restores inherited state.
* Proof: induction over the lists of strings with the invariant that the string area is zero from the offset on; correctness of the binary search on strictly sorted keys; copies into fresh memory leave all mapped memory unchanged; composition of writer and reader.
* Theorems: `C105_exec_start`, `C105_exec_too_many`.
* Stack layout of fexec_impl and the start code of the new program, for 64-bit words and a statically linked program. The allocator and the placement of the pages are parameters. Descriptor moves to the upper table, thread-local storage and init arrays are not modelled.

### C106 Scripts run under the interpreter named in their first line (partial)

* Model: `Verif/Exec/ShebangModel.lean`: `parse_interpreter` over the bytes of the file, the check of the mode, the argument list, and the repetition of `execve` for the dynamic linker.
* Proof: the scan is followed over the parts of an arbitrary well-formed first line; case analysis for `execve`; witnesses for the violations.
* Theorems: `C106_execute_permission`, `C106_execve_dynamic`, `C106_execve_program`, `C106_execve_script_partial`, `C106_interpreter_partial`, `C106_no_script`, `C106_noexec`, `C106_runs_program`.
* The code departs from the property: `C106_empty_line_violation`, `C106_errors_violation`, `C106_interpreter_permission_violation`, `C106_long_line_violation`, `C106_lost_argument_violation`, `C106_no_newline_violation`, `C106_short_read_violation`, `C106_tab_violation`.
* Proved for lines which end with a newline, have a space (not a tab) after the interpreter, and are at most 2048 bytes. The code refuses a script whose only line has no newline, loses its argument, does not take a tab as separator, takes the next line when the first is empty, counts the interpreter twice against the limit, does not check the permission of the interpreter, uses the real instead of the effective ids, and reports EPERM and ENOENT for EACCES (violation theorems).

### C107 Descriptor numbers: lowest free, never shared, flags kept (proved)

* Model: Fd/TableModel: both tables with their operations, each with an arbitrary answer of the kernel to growing; panics (`unreachable!`, counter underflow) are `none`.
* Proof: invariant (lowest index, free list as a chain without repetition, counters) preserved by every operation; every operation refines an operation on a map from numbers to flags (Fd/TableLemmas, Fd/TableProps).
* Theorems: `C107_count`, `C107_initial`, `C107_iter`, `C107_operation`.
* Complete for the two tables, their counters, the free list and the iterator; the kernel's answer to a request for a larger table is arbitrary. The flag word is reduced to close-on-exec; numbers are not cut to 32 bits.

### C108 Descriptors refer to what was opened; the two tables agree (partial)

* Model: Fd/CallModel: the functions over the table of the process and an abstract kernel map; threads as a transition system of single steps.
* Proof: the two tables agree: preserved by each call; invariant of the transition system: open in the table = open in the kernel, or reserved, or being closed (Fd/CallProps).
* Theorems: `C108_close`, `C108_dup`, `C108_dup2_partial`, `C108_dupfd_partial`, `C108_exec`, `C108_flags`, `C108_open`, `C108_threads`.
* The code departs from the property: `C108_dup2_error_violation`, `C108_dup2_same_violation`, `C108_dupfd_violation`, `C108_stray_close_violation`.
* open, dup, close, F_GETFD, F_SETFD, exec and the threads part in full, relative to a kernel taken as a map from numbers to files. Violations: a dup2 that fails (bad source) drops the open target from the table, so the next open replaces it; dup2(fd, fd) clears close-on-exec; F_DUPFD ignores its minimum; closing a number that is not open while another thread opens a file lets that number be given twice.

### C109 Working directory (partial)

* Model: Cwd/Model: `chdir`, `fchdir`, `path::getcwd`, `getcwd` over a state (`CWD`) and memory; the kernel and the crate `redox-path` are the fields of `World`, about which nothing is assumed.
* Proof: case analysis against a relation which says what a name names; invariant over sequences of calls; writes into memory by `patch`; witnesses (Cwd/Props).
* Theorems: `C109_chdir`, `C109_fchdir_partial`, `C109_getcwd_null_partial`, `C109_getcwd_partial`, `C109_invariant`.
* The code departs from the property: `C109_fchdir_violation`, `C109_getcwd_null_violation`, `C109_getcwd_violation`.
* getcwd: without a buffer of exactly the length of the name, for which there is no NUL (C109_getcwd_violation), and without names of PATH_MAX bytes for a null buffer (panic, C109_getcwd_null_violation); fchdir does not check that the file is a directory (C109_fchdir_violation). A buffer of size 0 gives ERANGE instead of EINVAL.

### C110 Symbolic links between schemes (partial)

* Model: Cwd/Model: `read_link_content`, `resolve_sym_links`, `openat2_path`, `open`, `openat`, over the same `World`.
* Proof: induction over chains of links (`Spec.Path`); witness (Cwd/LinkProps).
* Theorems: `C110_open_partial`, `C110_open_relative_partial`, `C110_openat_partial`, `C110_resolve`.
* The code departs from the property: `C110_open_violation`.
* The first link, if relative, is looked up from the working directory or the directory descriptor instead of the directory of the link (C110_open_violation); the theorems for open and openat exclude that case. The kernel and the name functions of the crate redox-path, which is not in the repository, are parameters.

### C111 Shared buffers of redox_ring (partial)

* Model: Ring/Model: `ShmAllocator`, the functions of `RingPool` for equal buffers, the number of entries of a queue. The crates `redox_rings` and `redox_buffer_pool` are not modelled.
* Proof: free and used offsets together are a permutation of all offsets: invariant over sequences of calls; arithmetic of powers of two; witnesses (Ring/Props).
* Theorems: `C111_pool`, `C111_queue`.
* The code departs from the property: `C111_free_sized_violation`, `C111_sized_violation`.
* Holds for buffers requested with redox_ring_alloc_buf and freed by offset. On a pool of equal buffers redox_ring_alloc_sized ignores the size (C111_sized_violation), and redox_ring_free_buf_sized always frees the first buffer of the pool (C111_free_sized_violation). The pool for buffers of any size is in a crate outside the repository.

### C112 Timers and alarms (partial)

* Model: Timer/Model: one timer as a transition system: calls, the kernel's wake-ups and event queue, the threads running `timer_routine`; times are natural numbers (timespec arithmetic is C33), system calls succeed.
* Proof: invariant: an armed timer has exactly one wake-up or event outstanding and one thread with the current version; the trace of events is one of an ideal timer; rank argument for delivery; executions as witnesses (Timer/Props).
* Theorems: `C112_alarm_partial`, `C112_timer_partial`.
* The code departs from the property: `C112_alarm_violation`, `C112_create_violation`, `C112_disarm_violation`, `C112_drift_violation`, `C112_gettime_violation`, `C112_race_violation`, `C112_rearm_violation`.
* Proved for programs that arm a timer only when it is off and do not disarm it. Otherwise: an earlier wake-up notifies in place of the later one (C112_rearm_violation), a periodic timer goes on after disarming (C112_disarm_violation), a notification after disarming before the thread has started (C112_race_violation), time left after disarming (C112_gettime_violation), alarm(10); alarm(0); alarm(20) never rings (C112_alarm_violation). Periods drift (C112_drift_violation), real-time signals but the first are refused (C112_create_violation).

### C113 Messages with descriptors: what sendmsg sends and recvmsg delivers (partial)

* Model: `Socket/MsgModel.lean`: `sendmsg`, `recvmsg` and the functions they are made of, over memory of bytes, a `Scheme` (arbitrary state machine with give/take/send/recv) for the other side; the `CMSG_*` macros.
* Proof: Induction over the list of control messages (`recvCmsgs_all`) and of buffers; the spec is a list of `Ctl` and where it lies in memory (`Placed`, `ControlIs`).
* Theorems: `C113_recv_partial`, `C113_send_partial`.
* The code departs from the property: `C113_ctrunc_violation`, `C113_dest_violation`, `C113_empty_violation`, `C113_error_violation`, `C113_leak_violation`, `C113_name_violation`, `C113_overrun_violation`.
* sendmsg and recvmsg are exact for inet names, any buffers and any well-formed control messages. Violations: msg_name of sendmsg is ignored; without buffers the payload length is missing from the stream; a failing sendmsg has already given descriptors away; cmsg_len is not checked against the control buffer; descriptors of a control message which does not fit are taken but neither delivered nor closed; no MSG_CTRUNC without a control buffer; a name while msg_namelen is 0 is taken for payload.

### C114 Socket addresses: what bind and connect name, what getsockname and getpeername report (partial)

* Model: `Socket/AddrModel.lean`: the address functions over memory, table of descriptors and an arbitrary kernel (`Kernel`).
* Proof: Case analysis on family and length; printing and parsing of dotted addresses from C77; stores as patches of memory.
* Theorems: `C114_accept`, `C114_bind_unix_partial`, `C114_connect_unix_partial`, `C114_family`, `C114_inet`, `C114_name`, `C114_roundtrip`, `C114_unix_partial`.
* The code departs from the property: `C114_bind_unix_violation`, `C114_connect_unix_violation`, `C114_unix_violation`.
* Exact for AF_INET, including the round trip; for Unix sockets with room for the whole name. Violations: the caller's length is ignored for Unix names (overflow of the buffer); connect ignores address_len and reads sun_path as a C string; bind with address_len < 2 wraps around.

### C115 pthread_create: the memory of a thread (partial)

* Model: `Threads/CreateModel.lean`: `create`, `newTcb`, `push`, `exitThread`, `join` over memory as a partial map (mapping and unmapping change its domain) and an arbitrary kernel.
* Proof: The kernel maps only unmapped pages (`Kernel.Sound`); induction over the words pushed; domains compared before and after.
* Theorems: `C115_create`, `C115_end_partial`, `C115_error_partial`, `C115_given_stack_partial`, `C115_no_fault`.
* The code departs from the property: `C115_guard_violation`, `C115_leak_violation`, `C115_overrun_violation`, `C115_stack_lost_violation`, `C115_stack_unmapped_violation`, `C115_tls_leak_violation`.
* Exact for stacks allocated by the library (contents of the new stack, disjointness, no fault) and for errors before the thread is started. Violations: the control block leaks if the kernel does not start the thread; thread-local storage and the page below it are never unmapped; the guard size is ignored; a caller's stack is rounded up (written above its end), unmapped on failure, and unmapped when the thread ends.

### C116 C11 threads: results of mtx_*, cnd_timedwait, thrd_create and thrd_join (partial)

* Model: `Threads/C11Model.lean`: the functions of `threads.h` and the parts of `RlctMutex` and `Cond` they call; other threads are the list of what each turn of the loop meets.
* Proof: Induction over the number of locks (`Held`) and over the turns.
* Theorems: `C116_cnd_partial`, `C116_create_partial`, `C116_join_partial`, `C116_lock`, `C116_plain`, `C116_recursive`, `C116_timedlock_partial`, `C116_trylock_partial`, `C116_unlock`.
* The code departs from the property: `C116_busy_violation`, `C116_cnd_timeout_violation`, `C116_join_violation`, `C116_nomem_violation`, `C116_sleep_violation`, `C116_timeout_violation`.
* Recursion, plain mutexes, ownership after success, unlock and thrd_create success are exact. Violations: thrd_busy and thrd_timedout are never reported (errno is looked at, which pthread functions do not set), errno is set to 0, missing memory for the control block is thrd_error, thrd_join stores eight bytes, thrd_sleep panics.

### C117 Sockets, pairs of sockets, sendto, recvfrom and options on Redox (partial)

* Model: `Socket/CallModel.lean`: `socket`, `socketpair`, `sendto`, `recvfrom`, `getsockopt`, `setsockopt`, `listen`, `shutdown` of Redox over a kernel and schemes with arbitrary state and answers; descriptors with `FD_CLOEXEC`, numbers for new ones from an arbitrary allocator that gives free ones; `sendmsg`/`recvmsg` are those of C113.
* Proof: case analysis over every call that may fail, with the table of descriptors before and after; `domainTypeOf_iff` characterizes the names of sockets; `recvfrom` by the theorem on `recvmsg` and frame conditions.
* Theorems: `C117_getsockopt`, `C117_recv`, `C117_recvfrom_partial`, `C117_refused`, `C117_scheme`, `C117_send`, `C117_sendto_partial`, `C117_sigpipe`, `C117_socket`, `C117_socketpair_partial`, `C117_timeout`, `C117_unsupported`.
* The code departs from the property: `C117_cloexec_violation`, `C117_dest_violation`, `C117_error_violation`, `C117_level_violation`, `C117_listen_violation`, `C117_noaddress_violation`, `C117_protocol_violation`, `C117_unix_violation`, `C117_usec_violation`.
* Proved: socket (scheme, flags, errors), refusals, send/recv without flags, SIGPIPE exactly and descriptors unchanged for every sendto, domain/type/time limits, other options and shutdown as the scheme says. Partial: socketpair (all but SOCK_CLOEXEC), sendto (without flags, internet addresses), recvfrom (length of the address cut off). Violations: SOCK_CLOEXEC lost by socketpair, protocol ignored, destination ignored with flags, Unix destinations refused, SO_ERROR always 0, unknown levels and listen always succeed, microseconds out of range accepted, address taken for the datagram if there is no room for it.

### C118 User and group ids on Redox (partial)

* Model: `Ids/Model.lean`: `setresuid` … `setregid`, `posix_setresugid` with its copy of the ids, the ids in `spawn`, over a process manager that may refuse every request.
* Proof: Exact equations for `setresuid`/`setresgid`; invariant copy = own ids over sequences of calls; concrete runs for the violations, with the Unix rule for requests.
* Theorems: `C118_effective_partial`, `C118_reports_partial`, `C118_setresgid_exact`, `C118_setresuid_exact`, `C118_spawn_partial`.
* The code departs from the property: `C118_setreuid_saved_violation`, `C118_setuid_real_violation`, `C118_setuid_saved_violation`, `C118_spawn_violation`.
* Proved for every process manager: what setresuid/setresgid ask and change, and that the reported ids are the real ones after any calls that set ids. Violations: posix_spawn with attributes puts the child's effective ids into the parent's copy; setuid keeps the saved id of a privileged process, which can then regain its privileges, and changes the real id of another one; setreuid never sets the saved id.

### C119 Nice values on Redox (proved)

* Model: `Ids/Model.lean`: `getpriority`, `setpriority`, `nice` with 32-bit arithmetic over a kernel that keeps priorities.
* Proof: 32-bit values as integers, case analysis on the range.
* Theorems: `C119_getpriority_exact`, `C119_nice_exact`, `C119_setpriority_exact`.
* Proved for every kernel that keeps priorities from 0 to 39.

### C120 Record locks on Redox (partial)

* Model: `Reclock/Model.lean`: `setlk`, `getlk`, `fcntl`, `lockf` over an arbitrary file system; 64-bit offsets with wrap-around, flags in bit 63.
* Proof: The section as a set of integers compared with the meaning of the two words; concrete runs for the violations.
* Theorems: `C120_getlk_partial`, `C120_lockf_partial`, `C120_lockf_requests_partial`, `C120_setlk_partial`.
* The code departs from the property: `C120_getlk_violation`, `C120_lockf_block_violation`, `C120_lockf_violation`, `C120_overflow_violation`.
* Proved for SEEK_SET and any file system: exactly the bytes asked for are locked or unlocked. Violations: SEEK_CUR and SEEK_END lock the whole file, so lockf does; F_LOCK requests no lock; F_GETLK reports the start of the request instead of that of the lock (negative for OFD locks); overflowing sections panic or lock something else.

### C121 Waiting for children on Redox (partial)

* Model: `Wait/Model.lean`: the loop of `waitpid` over an arbitrary sequence of answers, with a bound on the number of turns looked at; the macros on 32-bit words.
* Proof: Induction over the turns; for the endless loop for every number of turns; the macros by arithmetic modulo 128 and 256 and complete tables of codes.
* Theorems: `C121_exit_exact`, `C121_macros_exact`, `C121_macros_exclusive`, `C121_request_exact`, `C121_waitpid_partial`.
* The code departs from the property: `C121_nohang_violation`.
* Proved: requests, results for answers without a stop before 0 or an error, the macros. Violation: after a child has been stopped waitpid with WNOHANG (or when there are no children) never returns.

### C122 system and popen (partial)

* Model: `Wait/Model.lean`: `popen` over tables of descriptors of the caller and its children, `system` over standard output as file and buffer.
* Proof: Tables before and after compared descriptor by descriptor; concrete runs for the violations.
* Theorems: `C122_popen_cloexec_partial`, `C122_popen_mode`, `C122_popen_partial`, `C122_system_partial`.
* The code departs from the property: `C122_popen_fork_violation`, `C122_popen_inherit_violation`, `C122_popen_std_violation`, `C122_system_violation`.
* Proved: system with a shell that can be executed; popen with new descriptors from 2 on; streams with e are not inherited. Violations: buffered output written twice when the shell cannot be executed; both pipe ends leak if fork fails; with standard input or output closed the shell has none; later shells keep the pipes of earlier ones open.

### C123 New files, their permissions, access on Redox (partial)

* Model: `Modes/Model.lean`: `openat`, `mkdirat`, `mknodat`, `mkfifoat`, `symlinkat`, `utimensat`, `faccessat`, `umask` over a file system with kinds, permissions and links; directories above the file, ACLs and root are not modelled.
* Proof: The open word split into flags and permissions by bit lemmas; the check of `access` by the complete table of three-bit numbers; concrete runs for the violations.
* Theorems: `C123_access_partial`, `C123_mkdir_partial`, `C123_mkfifo_partial`, `C123_open_exact`, `C123_symlink_partial`, `C123_umask_exact`, `C123_utimensat_partial`.
* The code departs from the property: `C123_access_violation`, `C123_mkdir_violation`, `C123_mkfifo_violation`, `C123_symlink_violation`, `C123_utimensat_violation`.
* mkdir ignores its mode; mkfifo and mknod succeed if there is a file; symlink overwrites the beginning of a link that is there; utimensat with AT_SYMLINK_NOFOLLOW follows links; a denial of access is EINVAL: violations proved. Everything else of the statement is proved.

### C124 strfmon formats amounts of money (partial)

* Model: `Monetary/Model.lean`: `strfmon`, `format_monetary`, `apply_grouping`; amounts are exact binary fractions, the product with the power of ten is exact.
* Proof: The spec is a list of parts of a format and its text; the directive is read back from its text; induction over the parts with the buffer as a list; rounding by division with remainder; concrete runs for the violations.
* Theorems: `C124_bounds`, `C124_nearest`, `C124_strfmon_partial`.
* The code departs from the property: `C124_flags_violation`, `C124_grouping_violation`, `C124_left_violation`, `C124_utf8_violation`.
* Proved for ASCII text, %%, %n and %i with ! and +, width and precision, and whole parts of up to three or a multiple of three digits; bounds for every format. Violations proved: groups are counted from the left, ( ^ - = are ignored or errors, the left precision fills with zeros or fails, other characters than ASCII are cut.

### C125 Hosts looked up through DNS (partial)

* Model: lookup_host, lookup_addr, parse_ipv4_string and parse_revdns_answer as functions of the server's address in the file, the clock, the results of the socket calls and the packet that comes back; results include panics and not returning, the packets sent, and the descriptors left open..
* Proof: Messages are related to packets by the relation of C47, whose theorems give the contents of the question and of the answer; induction over the labels for names in answers; violations by computation, or for all worlds with the given property..
* Theorems: `C125_addr_partial`, `C125_failures`, `C125_host_partial`, `C125_quad`.
* The code departs from the property: `C125_id_violation`, `C125_labels_violation`, `C125_leak_violation`, `C125_lost_violation`, `C125_panic_violation`, `C125_pointer_violation`.
* Proved: dotted addresses without traffic, one question with the right content to the right server, addresses and (pointer-free) names of the answer in order, failures as errors. Violated by the code: names of four labels become 0.0.0.0; the socket stays open; answers are not compared with the question; a lost datagram waits for ever; malformed names panic; names with pointers come out empty.

### C126 getaddrinfo and getnameinfo (partial)

* Model: getaddrinfo, freeaddrinfo and getnameinfo as functions of their arguments and of the world of C125; results are the return value, errno, the list, what is written to the buffers, the number of boxes allocated, and the effects of the lookup..
* Proof: The loop over the addresses is described by induction; the rest by cases on the flags, on top of C125; violations for all worlds with the given property..
* Theorems: `C126_bounds`, `C126_free`, `C126_host_partial`, `C126_name_partial`, `C126_namereqd`, `C126_nohost`, `C126_numeric`, `C126_numeric_name`, `C126_numerichost`, `C126_roundtrip`, `C126_system`.
* The code departs from the property: `C126_canon_violation`, `C126_empty_violation`, `C126_family_violation`, `C126_fit_violation`, `C126_noname_violation`, `C126_numerichost_violation`, `C126_service_name_violation`, `C126_service_violation`.
* Proved: numeric hosts and ports, no host, host names through the name server, AI_NUMERICHOST without traffic, EAI_SYSTEM with errno, freeaddrinfo frees all boxes, numeric names, round trip, buffers never overrun, NI_NAMEREQD. Violated by the code: unknown services give port 0; family and protocol in the hints are ignored; no addresses is success with an empty list; names of four labels pass AI_NUMERICHOST as 0.0.0.0; EAI_BADFLAGS loses a box; an address without name leaves the host buffer untouched with success; service names are always empty; a buffer that just fits the name is refused with EAI_MEMORY.

### C127 strtod and strtof convert texts to the nearest number (partial)

* Model: strto_float_impl! on lists of bytes; f64 and f32 values that are not negative are natural numbers, counting the smallest positive value; the operations round the exact fraction to nearest, ties to even, with overflow to infinity, and the special values..
* Proof: rnd is proved to yield a nearest representable number, and representable numbers themselves; induction over the digits for integers, hexadecimal fractions (exact) and decimal fractions (error bound by an invariant); violations for all large exponents, and by computation..
* Theorems: `C127_decimal_partial`, `C127_fraction_partial`, `C127_hex_partial`, `C127_inf_partial`, `C127_integer`, `C127_letter`.
* The code departs from the property: `C127_hex_violation`, `C127_infinity_violation`, `C127_large_violation`, `C127_noconversion_violation`, `C127_rounding_violation`, `C127_small_violation`, `C127_wrap_violation`.
* Proved, on an exact model of IEEE arithmetic: integers of at most 53 (24) bits exactly, integers with exponents up to 22 (10) to the nearest number, hexadecimal numbers exactly, decimal fractions with an error bound, inf and nan, and the end pointer in all these cases. Violated by the code: exponents from 39 wrap, from 128 yield 0 (or infinity if negative, or not-a-number for 0e-128); fractions are not always the nearest number; the end pointer if there is no number, behind 0x without digits and within infinity; 0X is not recognised. errno is never set.

### C128 printf %f is correctly rounded (partial)

* Model: `Verif/Float/Model.lean`: `float_string`, `fmt_float_normal`, `fmt_float_nonfinite`, the padding of `inner_printf`, and its branch for `%f`; doubles as multiples of `2^-1074` (`Verif/Strtod/Model.lean`). The Rust library's `{:.p$}` is taken to be exact, ties to even. Reading the format is not part of it..
* Proof: The digits are read back: their value is the nearest integer to `x * 10^p` (`nearest_spec`, induction over the digits). The padding is compared with ISO C's rules case by case (`layout`). The way there and back uses C127..
* Theorems: `C128_fixed_partial`, `C128_nonfinite_partial`, `C128_roundtrip`.
* The code departs from the property: `C128_infinity_violation`, `C128_left_zero_violation`, `C128_negative_width_violation`, `C128_precision_violation`, `C128_sign_violation`.
* For every finite double the text is the correctly rounded decimal, ties to even, in the right field; inf and nan too; integers below 2^53 come back through strtod. Violated: flags + and space are ignored; - with 0 pads with zeros; 0 with a negative width from an argument writes 2^64 characters; a precision above 65535 panics; the sign of -inf is not counted in the width.

### C129 printf %e: mantissa and exponent (partial)

* Model: `float_exp` with its two loops over the arithmetic of doubles, `fmt_float_exp`..
* Proof: Relative error of a rounding (`rnd_rel`), composed along the loops by induction (`down_some`, `up_some`), which also shows that they end; monotony of rounding (`rnd_ge`)..
* Theorems: `C129_exponent_partial`, `C129_round`, `C129_unit`.
* The code departs from the property: `C129_carry_violation`, `C129_left_zero_violation`, `C129_small_violation`.
* Shape, exponent and relative error for every finite double; exact for 0, for 1 <= x < 10 and for one digit times a power of ten up to 10^22. Violated: numbers of at most 2^-52 are printed with exponent 0; a mantissa rounded up is printed as 10.000000; - with 0 ignores the width.

### C130 printf %g chooses between %f and %e (partial)

* Model: The branch for `%g`, with the trimming in `float_string`..
* Proof: The exponent found by the loops is the true one if the number is not just below a power of ten (`floatExp_exact`); removing the zeros is compared with a description by decomposition (`floatString_g`)..
* Theorems: `C130_general_partial`, `C130_threshold_partial`, `C130_zero`.
* The code departs from the property: `C130_carry_violation`, `C130_precision_violation`, `C130_small_violation`.
* Proved for 0 and for numbers from 1 to 10^23 not just below a power of ten, with a precision of at least 1. Violated: numbers below 1 lose digits, 999999.5 is 1000000, precision 0 is not taken as 1.

### C131 A temporary file is new, private and the caller's own (partial)

* Model: `Temp/Model`: `inner_mktemp` byte by byte in memory (32-bit lengths that wrap, offsets that may be negative, the six letters written from the last place to the first, 100 tries), the closures of `mkostemps`, `mkdtemp` and `mktemp`, `tmpnam`, `tempnam` and `tmpfile` above them. The file system is a map from names to files; other processes change it arbitrarily before every try, and any system call may be refused with any error. Simplified: a new descriptor gets a number above all others; nobody acts between the creation and the `unlink` in `tmpfile`..
* Proof: Induction over the tries with the invariant that memory differs from the start only in the six places and that failed tries change nothing; the names seen by the system are computed from memory. The prefix and the suffix are arbitrary lists. Five violations: every failure is EEXIST, a negative suffix length lets the bytes behind the string be overwritten, the directory of `mkdtemp` has mode 0777 less the umask, `tmpnam` writes one byte more than `L_tmpnam`..
* Theorems: `C131_mkdtemp_partial`, `C131_mkostemps`, `C131_mkstemp`, `C131_mktemp`, `C131_template`, `C131_tempnam`, `C131_tmpfile`, `C131_tmpnam_partial`.
* The code departs from the property: `C131_errno_violation`, `C131_mkdtemp_private_violation`, `C131_negative_suffix_violation`, `C131_tmpnam_overflow_violation`.
* Violated by the code: errno is EEXIST whatever the cause; a negative suffix length is not refused and memory behind the string is overwritten; mkdtemp's directory has mode 0777 less the umask (mkdir ignores the mode); tmpnam writes 8 bytes into an array of L_tmpnam = 7. Everything else is proved.

### C132 fopen, fdopen and freopen open the stream the mode says (partial)

* Model: `Stdio/OpenModel`: `parse_mode_flags`, `_fdopen`, `fopen`, `freopen` over a table of descriptors and a map of files; `open`, `fcntl`, `dup2` and `close` as the kernel is expected to do them. A stream is its descriptor, flags, bytes read ahead and bytes pending. Descriptors that share an open file are separate..
* Proof: The flags of a mode are a function of its first letter and of three membership tests (`parse_word`, a finite table); from these every case of `open` is compared with ISO C's table (`OpenFor`, `FileFor`), for arbitrary names and files. `freopen` is composed of `flush`, `fopen`, `dup2` and two closes. Five violations, all of `freopen`..
* Theorems: `C132_fdopen`, `C132_fopen`, `C132_freopen_partial`, `C132_invalid`.
* The code departs from the property: `C132_append_violation`, `C132_cloexec_violation`, `C132_null_mode_violation`, `C132_null_violation`, `C132_stale_violation`.
* fopen and fdopen: proved in full. freopen with a name: proved for modes without a and e. Violated by the code: freopen with a does not append (F_SETFL clears O_APPEND), with e the descriptor is not closed on exec, bytes read ahead from the old file are read from the new one, and freopen(NULL, ...) reports success without changing the mode (and accepts any mode string).

### C133 The signal functions of System V (proved)

* Model: `Signal/SysvModel.lean`: the functions, on top of the models of `sigaction` (C74), `sigprocmask`, `sigsuspend` (C63, C64) and the sets (C42), with interference before each access..
* Proof: Refinement: an abstract state (dispositions, signals held) is carried through any sequence of calls; one step lemma per function..
* Theorems: `C133_sigpause`, `C133_sysv`, `C133_unholdable`.
* For all sequences of calls. What happens while sigpause waits (the kernel, handlers) is not modelled beyond that handlers leave the mask as they found it.

### C134 Sending signals (partial)

* Model: `Signal/SendModel.lean`: the path of the arguments to the request; the process manager is an arbitrary function. `ProcKillTarget` is of another crate: taken to keep the number, positive ones being processes..
* Proof: Arithmetic of the conversions from `c_int` to `usize` and `u32`; cases on the answer..
* Theorems: `C134_kill`, `C134_killpg`, `C134_pthread_kill`, `C134_raise`, `C134_sigqueue_partial`.
* The code departs from the property: `C134_sigqueue_signal_violation`, `C134_sigqueue_value_violation`.
* sigqueue drops the value for the signals up to 32, and does not refuse numbers that are no signals: violations proved. killpg of a group below 1 is undefined in POSIX and left out.

### C135 scandir gives each wanted entry of a directory once, sorted (partial)

* Model: scandir on the directory streams of C73: the loop over readdir with the filter, the copies of 275 bytes from the place in the buffer (and from unknown memory behind it), the vector with its capacity, every allocation as an arbitrary yes or no, errno, and the sort by the insertion sort that qsort is proved to be (C25).
* Proof: Invariant: the vector has copies of the wanted ones of the records read so far (At of C73 for the stream); sortedness and permutation from the lemmas on isort; strcmp on names is the lexicographic order of lists..
* Theorems: `C135_alphasort`, `C135_open`, `C135_scandir_partial`.
* The code departs from the property: `C135_errno_violation`, `C135_leak_violation`, `C135_memory_violation`, `C135_over_violation`.
* Violations: the copy is always of 275 bytes, so that bytes behind the end of the stream's buffer are read (C135_over_violation); a filter which leaves a value in errno makes scandir fail (C135_errno_violation); without memory for a copy the list is cut off and success reported (C135_memory_violation); without memory for the vector the directory stays open (C135_leak_violation).

### C136 getsubopt splits options at commas and finds their keys and values (proved)

* Model: `Getopt/SuboptModel`: getsubopt byte by byte in memory, with strlen and strncmp as in C18 and C22; the array of keys is the list of its pointers..
* Proof: Induction over the string for the comma, over the keys for the answer (strncmp of as many bytes as the key has is equality with the key, by C18), over the options for the loop; later calls write behind the values of earlier ones..
* Theorems: `C136_getsubopt`, `C136_last`, `C136_option`, `C136_unique`.
* One call with and without a comma (C136_option, C136_last), the whole loop (C136_getsubopt); the answer is unique (C136_unique).

### C137 syslog delivers the messages the mask selects (partial)

* Model: `Verif/Syslog/Model.lean`: `openlog`, `setlogmask`, `closelog`, `syslog` with `LogParams`, on top of the model of `BufWriter` (C37); formatting of the text and the time is given with the call; Redox variant.
* Proof: invariant over sequences of calls: log plus buffer, without NULs, is the concatenation of the records expected; mask and priority bit by bit; violations for arbitrary messages.
* Theorems: `C137_setlogmask`, `C137_syslog_partial`.
* The code departs from the property: `C137_default_facility_violation`, `C137_empty_violation`, `C137_facility_violation`, `C137_lost_violation`.
* Proved for programs that set up logging first and then log without closing or reopening, facilities that are multiples of 32, and a log that accepts writes: exactly the selected records, in order, apart from NUL bytes, with at most 8192 bytes held back. Violated by the code: the buffer of records is never flushed and is thrown away by closelog, LOG_NDELAY and exit (C137_lost_violation); the mask is tested with the whole priority, so that messages of 15 of the 20 facilities are never logged (C137_facility_violation); the facility of openlog is dropped (C137_default_facility_violation); messages with an empty format are dropped (C137_empty_violation). setlogmask's value is proved for all sequences.

### C138 fmtmsg writes what was asked for and reports what it could not write (partial)

* Model: `Verif/Fmtmsg/Model.lean`: `fmtmsg` with `strcolcmp` and the loop over `MSGVERB`, strings as lists of bytes; `dprintf` as the bytes of its format and a limit.
* Proof: induction over `MSGVERB` for the bits selected, against a declarative reading of the variable; cases for the outputs.
* Theorems: `C138_fmtmsg_partial`.
* The code departs from the property: `C138_severity_violation`.
* Severities other than the five of the standard print "(null)" (C138_severity_violation).

### C139 System V shared memory segments are shared, whole and separate (partial)

* Model: `Verif/Shm/Model.lean`: `shmget`, `shmat`, `shmdt`, `shmctl` on a kernel of objects, names, descriptors and pages; one process; the header in front of the data is written and read through the pages.
* Proof: refinement: invariant between the kernel's state and abstract segments and attachments, for every step of a program that keeps to its own memory; violations for every reachable state.
* Theorems: `C139_create`, `C139_segments_partial`.
* The code departs from the property: `C139_errno_violation`, `C139_key_violation`, `C139_leak_violation`, `C139_readonly_violation`.
* The name is unlinked at once, so a key never finds its segment (C139_key_violation); SHM_RDONLY faults (C139_readonly_violation); a failing shmget leaks a descriptor and leaves the name (C139_leak_violation); a failing shmat does not set errno (C139_errno_violation).

### C140 Wide-character input and output transfer exactly the encodings (partial)

* Model: `Verif/Wstdio/Model.lean`: orientation, `fgetwc`, `fgetws`, `fputwc`, `fputws`, `ungetwc`, `fwide`, on the streams of C36/C68 and the conversions of C31/C32; locks are left out (the functions hold the lock for a whole call, `fgetws` only per character).
* Proof: the theorems on `getc`, `putc` and on `mbrtowc`, `wcrtomb` are put together by induction over the bytes of a character and over the characters of a line; the violations are universal statements about the same definitions.
* Theorems: `C140_end`, `C140_fgetwc_partial`, `C140_fgetws_partial`, `C140_first_byte`, `C140_fputwc_partial`, `C140_fputws_partial`, `C140_new_stream`, `C140_ungetwc`.
* The code departs from the property: `C140_empty_violation`, `C140_error_violation`, `C140_illegal_violation`, `C140_invalid_violation`, `C140_orientation_violation`, `C140_sticky_violation`, `C140_truncated_violation`, `C140_unget_eof_violation`, `C140_wide_violation`.
* Proved for streams that are not wide-oriented and hold valid text. Violations: a wide-oriented stream can be neither read nor written (and fputwc claims success); the functions make a stream byte-oriented; bytes that do not continue a character give a null character with no indicator; a truncated character is just an end of file; fputwc never reports an error and writes four null bytes for an invalid value; fgetws writes into a buffer of no elements, and fails after success if the error indicator was set before; ungetwc leaves the end-of-file indicator set.

### C141 gethostbyname and gethostbyaddr (partial)

* Model: `Verif/Hosts/Model.lean`: `gethostbyname`, `gethostbyaddr` on the file of hosts (C69) and the queries of C125, with `strcasecmp` (C50) and `inet_aton` (C41) as modelled there; pointers as the bytes up to the end of the block; names are ASCII.
* Proof: the search theorem of C69 gives the first entry of the file that the comparison accepts; the comparison is reduced to the specification by the theorems of C50 and C41; the other branch by those of C125.
* Theorems: `C141_byaddr_dns_partial`, `C141_byaddr_file`, `C141_byaddr_length`, `C141_byname_dns_partial`, `C141_byname_error`, `C141_byname_file`, `C141_byname_unknown`.
* The code departs from the property: `C141_family_violation`, `C141_labels_violation`, `C141_numeric_violation`, `C141_panic_violation`, `C141_uninit_violation`, `C141_unterminated_violation`.
* Proved: entries of the file by name, alias and address, queries to the name server, unknown hosts, failures. Violations: the name of a host found by query is not terminated and its alias list is freed memory; a numeric address without a name is not found; a name of four labels is taken for an address; the address family is not looked at; a line with an IPv6 address has an uninitialised address; a line of one word panics.

### C142 Pseudo-terminals and terminal modes (partial)

* Model: `openpty_inner`, `openpty`, `forkpty`, `login_tty` over a descriptor table and an environment that answers each call; `ptsname_r`, `ttyname_r` and `fpath` over a buffer; `cfmakeraw`, the speeds, and the argument checks of `tcsetattr`, `tcflush`, `tcflow`. Not modelled: what the kernel does with modes and sizes; `waitpid` for a child that failed; `setsid`..
* Proof: Case analysis over the environment, extensionality of descriptor tables, bitwise reasoning for the modes. Violations: an error of `ptsname_r` (positive) is not noticed by `openpty` (tests `< 0`), which then opens whatever is in the caller's buffer; a pipe end with the number of a closed standard descriptor closes the terminal in the child; `tcsetpgrp` returns the process group; errors of `ttyname_r` are negative, and `ENAMETOOLONG` rather than `ERANGE`; no speed can be set on Redox..
* Theorems: `C142_actions`, `C142_cfmakeraw`, `C142_forkpty_child_partial`, `C142_forkpty_failed`, `C142_forkpty_parent`, `C142_openpty_descriptors`, `C142_openpty_partial`, `C142_ptsname`, `C142_speed`, `C142_ttyname_partial`.
* The code departs from the property: `C142_name_violation`, `C142_speed_violation`, `C142_standard_violation`, `C142_tcsetpgrp_violation`, `C142_ttyname_violation`.
* Holds for openpty's and forkpty's descriptors, mask and cancellation state, ptsname_r, cfmakeraw, Linux speeds; violated by an unnoticed ptsname_r error, closed standard descriptors, tcsetpgrp's result, ttyname_r's errors, Redox speeds.

### C143 Wide character classes and cases agree with each other (proved)

* Model: The tables alpha, punct and the four tables of the case mapping as numbers, entry by entry; every function of wctype with the same arithmetic modulo 2^32, an access behind the end of a table being none; wcscasecmp and wcsncasecmp on lists..
* Proof: Block by block over the whole tables by evaluation in the kernel: 512 blocks of the case mapping (blocks without case by a lemma about their row), all 16384 bytes of the two class tables for disjointness, all characters that cannot be printed for membership; arithmetic for the rest; induction for the comparisons..
* Theorems: `C143_ascii`, `C143_classes`, `C143_controls`, `C143_mappings`, `C143_names`, `C143_no_character`, `C143_total`, `C143_wcscasecmp`, `C143_wcsncasecmp`.
* All theorems for every wint_t. The tables themselves are compared with the source by the generator only; that they agree with the Unicode database is not claimed. wcscasecmp for characters below 2^31, where the difference does not overflow.

### C144 Locales: setlocale, uselocale, newlocale, duplocale, localeconv (partial)

* Model: The global locale, the locale of each thread and the objects that were allocated as a state; lconv as a function from its 24 fields to what they point to; setlocale, uselocale, newlocale, duplocale, freelocale, localeconv, copy_category case by case. The lifetime of the string setlocale returns is not modelled..
* Proof: Case analysis over fields, categories and masks for an arbitrary state; the violations are theorems for every state or every file..
* Theorems: `C144_duplocale_partial`, `C144_failed`, `C144_initial`, `C144_localeconv`, `C144_newlocale_partial`, `C144_setlocale_partial`, `C144_uselocale`.
* The code departs from the property: `C144_all_names_violation`, `C144_decimal_point_violation`, `C144_duplocale_violation`, `C144_frac_digits_violation`, `C144_name_violation`, `C144_newlocale_C_violation`, `C144_null_base_violation`.
* The C locale made by setlocale, newlocale and duplocale has no decimal point; frac_digits is treated as of LC_NUMERIC; the names for LC_ALL and for single categories are not kept in step; names that are not UTF-8 are taken as C; newlocale with a null base ignores the mask; duplocale of the global locale is not a copy: each is a violation theorem. The rest is proved for every state.

### C145 Locale definition files are read line by line (partial)

* Model: PosixLocaleDef::parse with its helpers on bytes: lines, words, continuation lines, strings, numbers (i8) and groupings..
* Proof: Induction over the lines of a file, and over the bytes of a word, a string and a grouping; the numbers by evaluation of all of them..
* Theorems: `C145_after_quote`, `C145_continued`, `C145_grouping`, `C145_grouping_end`, `C145_lines`, `C145_number`, `C145_string`.
* The code departs from the property: `C145_space_violation`, `C145_symbol_violation`.
* Proved for all files of lines with one keyword and one word; a string with a space and symbolic character names are wrong (violation theorems); continuation lines are modelled and shown in an example only.

### C146 Setting the times of a file changes these times and nothing else (partial)

* Model: `FileOps/Model.lean`: a file system of nodes with times and links, `futimens`, `utimensat`, `utimens`, `utimes`, `utime` on both platforms, the kernel's reading of UTIME_NOW/UTIME_OMIT as documented.
* Proof: Case analysis; a relation `Means` says what a requested time stands for, `Changed` that one node changed and nothing else. Violations: `utime(path, NULL)` reads a null pointer, AT_SYMLINK_NOFOLLOW is passed as an open flag and the link is followed, Linux needs the file to be readable, Redox truncates the nanoseconds to 32 bits..
* Theorems: `C146_failed`, `C146_futimens`, `C146_range_partial`, `C146_utime_partial`, `C146_utimensat_partial`, `C146_utimes`.
* The code departs from the property: `C146_narrow_violation`, `C146_nofollow_violation`, `C146_unreadable_violation`, `C146_utime_null_violation`.
* `_partial`: a null pointer in utime faults, AT_SYMLINK_NOFOLLOW follows the link, unreadable files on Linux, nanoseconds truncated on Redox (each a `_violation`).

### C147 posix_fallocate keeps the content and reaches the end of the range (partial)

* Model: `FileOps/Model.lean`: `posix_fallocate` of Redox over a file content and a kernel that can fail at each step.
* Proof: Case analysis on the lengths; failure cases leave the content. Violation: an end above the largest off_t reaches the kernel..
* Theorems: `C147_failed`, `C147_fallocate`.
* The code departs from the property: `C147_large_violation`.
* The end above the largest off_t is passed to the kernel instead of EFBIG (`C147_large_violation`); the rest is proved.

### C148 gethostname writes the name of the host within the buffer (partial)

* Model: `FileOps/Model.lean`: `uname`'s reading of /etc/hostname and the copying loop of `gethostname`.
* Proof: Induction on the name. Violation: a line feed at the end of the file is part of the name..
* Theorems: `C148_bounds`, `C148_gethostname_partial`.
* The code departs from the property: `C148_newline_violation`.
* A line feed at the end of /etc/hostname becomes part of the name (`C148_newline_violation`).

### C149 The message for an error number is whole and within its buffer (partial)

* Model: `Messages/{Tables,Model}.lean`: the 132 strings of STR_ERROR as bytes, `StringWriter` on a buffer of STRERROR_MAX bytes with any content, `strerror`, `strerror_r`; `perror` as its pieces and a kernel that takes part of each. The meanings of the numbers are a separate table (`Messages/Spec.lean`) taken from the constants..
* Proof: The lookup over both whole tables by evaluation in the kernel; the buffer by algebra of lists for any content; arithmetic for the length of the largest number. Violations: unknown numbers and prefixes that are not UTF-8 in `perror`, short writes..
* Theorems: `C149_buffer`, `C149_perror_partial`, `C149_strerror`, `C149_strerror_r`, `C149_unknown`.
* The code departs from the property: `C149_perror_short_violation`, `C149_perror_unknown_violation`, `C149_perror_utf8_violation`.
* perror: an unknown number, a prefix that is not UTF-8 and short writes are `_violation`s; strerror and strerror_r are proved.

### C150 The description of a signal (partial)

* Model: `Messages/Model.lean`: SIGNAL_STRINGS as bytes, `strsignal`, `psignal`.
* Proof: Evaluation over the whole table of 32, arithmetic for the other numbers. Violation: an empty prefix..
* Theorems: `C150_psignal_partial`, `C150_strsignal`.
* The code departs from the property: `C150_empty_violation`.
* An empty prefix is printed as a colon and a blank (`C150_empty_violation`).

### C151 err and warn write one line and end the process with the status given (partial)

* Model: `Messages/Model.lean`: the sink, the callback and the streams as a state; the twelve functions (the v-forms are the same); `printf`'s formatting (C35, C62) is given.
* Proof: Case analysis over message and code for any state. Violation: the callback gets the error number..
* Theorems: `C151_err_partial`, `C151_set_file`, `C151_warn`.
* The code departs from the property: `C151_callback_violation`.
* The callback is called with the error number instead of the status (`C151_callback_violation`).

### C152 The program break moves within its area and pieces do not overlap (partial)

* Model: `Mman/Model.lean`: BRK_CUR, BRK_END and BRK as a state of numbers, `Sys::brk` of Redox, `brk`, `sbrk`; addresses wrap at 2^64; the answer of `mmap` is given.
* Proof: An invariant `Reserved` (place of the area, break, bounds) kept by every call; induction over rows of calls for the pieces. The area lies below 2^63. Violations: the break cannot be moved back, moving it to null reports success, no memory gives a null pointer..
* Theorems: `C152_brk_partial`, `C152_disjoint`, `C152_first`, `C152_sbrk`.
* The code departs from the property: `C152_back_violation`, `C152_memory_violation`, `C152_null_violation`.
* The break cannot be moved back (`C152_back_violation`), a move to the null pointer is reported as done (`C152_null_violation`), sbrk(0) without memory gives a null pointer (`C152_memory_violation`).

### C153 Shared memory objects have names of their own (partial)

* Model: `Mman/Model.lean`: `shm_path` for both platforms.
* Proof: Induction over the name; a separate lexical walk along a path says where it leads. Violation: `/../x` leads out of the directory..
* Theorems: `C153_inside_partial`, `C153_names`, `C153_path`.
* The code departs from the property: `C153_outside_violation`.
* A name with `..` behind its first slashes leads out of the directory (`C153_outside_violation`).

### C154 swab exchanges the bytes of each pair and nothing else (proved)

* Model: `Mman/Model.lean`: `swab` on lists (source and destination not overlapping).
* Proof: Induction over the pairs..
* Theorems: `C154_negative`, `C154_swab`.
* Source and destination do not overlap.

### C155 getgroups gives the groups the user is a member of (partial)

* Model: `Verif.Users.GroupsModel`: the loops over groups and members, on the byte model of `getgrent` and `getpwuid` of C87 and C88.
* Proof: induction over the lines; the members are read back from the pointers of the entry.
* Theorems: `C155_bounds`, `C155_getgroups_partial`, `C155_negative`.
* The code departs from the property: `C155_enumeration_violation`, `C155_unknown_violation`.
* Partial: every line of the group database must describe a group; violations: a user without an entry gets ENOENT, and a call restarts an enumeration with getgrent.

### C156 posix_getdents delivers every entry once (proved)

* Model: `Verif.Dir.GetdentsModel`: the calls and the walk over the records, on the kernel model of C73.
* Proof: induction over the calls, with an inner induction over the records of a call.
* Theorems: `C156_bad_records`, `C156_failure`, `C156_getdents`.
* Redox. The kernel's side is that of C73; lseek does not fail.

### C157 mmap, munmap and mprotect act on whole pages (partial)

* Model: `Verif.Mman.MapModel`: the arithmetic of lengths and flags, up to the system call.
* Proof: arithmetic of pages; bit by bit for the flags.
* Theorems: `C157_lengths`, `C157_mmap_partial`, `C157_mprotect`, `C157_munmap`.
* The code departs from the property: `C157_flags_violation`, `C157_msync_violation`.
* Partial: what the kernel is asked for; violations: MAP_POPULATE and MAP_HUGETLB contain MAP_FIXED, msync always fails.

### C158 Names of terminals (partial)

* Model: `Verif.Unistd.Model`: `ttyname_r`, `ctermid`; the path comes from the system.
* Proof: lists.
* Theorems: `C158_bounds`, `C158_ctermid`, `C158_ttyname_partial`.
* The code departs from the property: `C158_errors_violation`, `C158_notty_violation`.
* Violations: errors are negative, ENAMETOOLONG for ERANGE, no ENOTTY. fpath's conversion of the kernel's path is not modelled.

### C159 daemon leaves a detached process (proved)

* Model: `Verif.Unistd.Model`: the process as directory, descriptors, session; the system's answers as parameters.
* Proof: case analysis over the answers.
* Theorems: `C159_daemon`, `C159_failure`, `C159_session`.
* Buffered output and the threads of the caller are not modelled.

### C160 getpass reads a line without echo and sets the terminal back (partial)

* Model: `Verif.Unistd.Model`: the flags of the terminal and the array; results of reads and writes as parameters.
* Proof: bit by bit for the flags; lists.
* Theorems: `C160_bounds`, `C160_failure`, `C160_getpass_partial`, `C160_quiet`.
* The code departs from the property: `C160_echo_violation`.
* Partial: all reads and writes succeed; violation: the terminal stays without echo after a failure.

### C161 confstr returns the size of the value and writes it within the array (partial)

* Model: `Verif.Unistd.Model`: `confstr`.
* Proof: lists.
* Theorems: `C161_path`, `C161_unknown`.
* The code departs from the property: `C161_violation`.
* Violations: nothing is written for names with the value "", and ten names of unistd.h are refused.

### C162 sleep and usleep sleep the time given and report what is left (partial)

* Model: `Verif.Unistd.Model`: times in nanoseconds; `nanosleep` is a parameter.
* Proof: arithmetic.
* Theorems: `C162_sleep_partial`, `C162_usleep`.
* The code departs from the property: `C162_sleep_violation`.
* Violation: an interruption with less than a second left is reported as 0.

### C163 Names and indexes of interfaces belong together (partial)

* Model: `Verif.Unistd.Model`: the table of one interface.
* Proof: case analysis.
* Theorems: `C163_interfaces_partial`.
* The code departs from the property: `C163_buffer_violation`.
* Violation: if_indextoname does not write into the array.

### C164 wcswidth counts the columns of a wide string (partial)

* Model: `Verif.Unistd.Model`: the loop with an arbitrary table of widths.
* Proof: induction over the string.
* Theorems: `C164_wcswidth_partial`.
* The code departs from the property: `C164_end_violation`.
* Partial: n characters before the end of the string; violation: it does not stop at the end.

### C165 div and abs are those of ISO C (proved)

* Model: `Verif.Misc.Model`: integers with a width; a panic is no result.
* Proof: uniqueness of quotient and remainder; case analysis on the divisor.
* Theorems: `C165_abs`, `C165_div`.
* For every width. A division by zero and the one quotient that cannot be represented panic; ISO C leaves them open.

### C166 The views of the clock agree (proved)

* Model: `Verif.Misc.Model`: times as seconds and nanoseconds; clocks are parameters.
* Proof: arithmetic, wrapping shown not to happen.
* Theorems: `C166_clock`, `C166_clock_monotone`, `C166_getres`, `C166_time`, `C166_timespec_get`.
* Times of the kernel have nanoseconds below 10^9; clock is exact for 290000 years, then it wraps.

### C167 rand repeats what the seed determines (partial)

* Model: `Verif.Misc.Model`: the state of `rand` over an arbitrary generator.
* Proof: induction over the number of calls; witnesses for different seeds.
* Theorems: `C167_rand_r`, `C167_range`, `C167_repeat`, `C167_seed_partial`, `C167_sequence`.
* The code departs from the property: `C167_seed_violation`.
* Proved for any generator; that the distribution keeps to 0..=RAND_MAX is a hypothesis. Different seeds: violated, srand keeps the low byte only, so there are 256 sequences (C167_seed_violation).

### C168 A cursor is a file in memory (proved)

* Model: `Verif.Misc.Model`: bytes and a position; `write_all`, `write!`.
* Proof: pointwise description of the lists; induction over the pieces.
* Theorems: `C168_fpath`, `C168_read`, `C168_seek`, `C168_slice_write`, `C168_vec_write`.
* The kernel's path is given as scheme and reference; its parsing by the crate redox_path is not modelled.

### C169 pathconf answers every name (proved)

* Model: `Verif.Misc.Model`: the table.
* Proof: the whole table, and case analysis beyond it.
* Theorems: `C169_name_max`, `C169_pathconf`.

### C170 Calls made of several calls keep the promise of one (partial)

* Model: `Verif.Misc.Model`: results of the steps and actions of others as parameters.
* Proof: case analysis; witnesses for the violations.
* Theorems: `C170_remove_partial`, `C170_rename_partial`, `C170_with_fd`.
* The code departs from the property: `C170_remove_violation`, `C170_rename_violation`.
* Violated: remove of a file reports the error of rmdir (C170_remove_violation); renameat2 with RENAME_NOREPLACE replaces a file created after the look (C170_rename_violation).

### C171 A password that was hashed verifies (partial)

* Model: `Verif/Crypt/Model.lean`: `crypt_r` with all seven kinds of settings, their parsers and the composition of the output; the hash functions themselves (external crates) are parameters, of which only the alphabet (and, for scrypt, the constant length) is assumed. Long passwords, rounds clamped, salts cut..
* Proof: Each output is parsed again by the same parser: the digits of the rounds and of the cost read back, the salt stops at the same `$`. The violations are for all passwords and settings of the kind..
* Theorems: `C171_argon2`, `C171_unknown`, `C171_verify_partial`.
* The code departs from the property: `C171_bcrypt_violation`, `C171_overflow_violation`, `C171_pbkdf2_violation`, `C171_scrypt_violation`, `C171_traditional_violation`.
* Proved for MD5, SHA-256, SHA-512 and Argon2, for any hash functions with base-64 output. The code violates it for the other kinds: a Blowfish hash lacks the salt (C171_bcrypt_violation, for hashes without fixed points), a PBKDF2 hash is never accepted as a setting, a scrypt hash is never reproduced; traditional settings give no errno, and a long Argon2 hash overruns the 256 bytes of crypt_data.

### C172 regexec reports the groups of a match within the array, and regerror a terminated text (partial)

* Model: `Verif/Regex/Model.lean`: `regcomp`, `regexec`, `regerror`; the compiler and the matcher are an `Engine`, a parameter. Memory is the array `pmatch`; a write outside of it is `none`..
* Proof: Induction along the loop over the entries; a table of the sixteen texts..
* Theorems: `C172_comp`, `C172_error`, `C172_error_differs`, `C172_exec_partial`.
* The code departs from the property: `C172_error_violation`, `C172_nosub_violation`.
* Proved with the matcher (crate posix_regex) as a parameter, except where the code violates it: REG_NOSUB given to regcomp is ignored, so that the array is written (C172_nosub_violation), and regerror does not terminate a text that it cuts (C172_error_violation).

### C173 A buffered reader delivers the bytes of the file (partial)

* Model: `Verif/BufRead/Model.lean`: `BufReader` with `fill_buf`, `consume`, `read`, `seek`, `seek_relative`, and `read_until`, over a file with fixed contents whose calls end as a list says (interrupted, failed, short)..
* Proof: The invariant `At` relates the buffer and the position of the file below to the position of the user; each operation preserves it and has the outcome that `Unbuffered` asks for; induction over the operations and, for `read_until`, over its recursion..
* Theorems: `C173_reader_partial`.
* The code departs from the property: `C173_back_violation`.
* Proved for all operations, with seek_relative forward only: backward it can lead to stale bytes of the buffer after a large read or a seek (C173_back_violation).

### C174 Words and stored positions of a stream (proved)

* Model: `Verif/Stdio/WordModel.lean`: `putw`, `getw`, `fgetpos`, `fsetpos` on top of the stream model (`fread`, `fwrite`, `ftell`, `fseek`); the local variable of `getw`/`putw` is a piece of memory of four bytes..
* Proof: From the theorems about `fread`, `fwrite`, `ftell` and `fseek` (C36, C37, C39); the word is compared with the number its bytes stand for..
* Theorems: `C174_fgetpos`, `C174_fsetpos`, `C174_getw`, `C174_minus_one`, `C174_pushed_back`, `C174_putw`, `C174_restore`, `C174_round_trip`.
* All of it.

### C175 Strings ended by a NUL (proved)

* Model: `Verif/NulStr/Model.lean`: all of `NulStr` that looks at memory, for elements of any type with a zero (bytes and wide characters)..
* Proof: Induction over the string; specification is the list of elements (`CStr m p s`), splits of lists and membership..
* Theorems: `C175_find`, `C175_find_or_all`, `C175_from_until_nul`, `C175_from_with_nul`, `C175_split_first`, `C175_split_first_char`, `C175_to_chars`.
* All of it; the conversions between c_char and u8 are left out.

### C176 Readers built from readers, and reading or writing everything (proved)

* Model: `Verif/IoRead/Model.lean`: `Take`, `Chain` over files with scheduled short reads, interruptions and errors, as an inductive type of readers; `read_to_end` with any growth of the vector, `read_exact`, `read_to_string` with the check of UTF-8 as a parameter, `write_all` to a sink with a schedule..
* Proof: Structural induction over the reader for one `read`; the loops by induction over a measure that every call decreases; specification is the list of bytes a reader has still to give..
* Theorems: `C176_chain`, `C176_read`, `C176_read_exact`, `C176_read_to_end`, `C176_read_to_string`, `C176_take`, `C176_write_all`.
* All of it; fill_buf and consume of Take and Chain are not modelled.

### C177 uname fills every field with its own string (partial)

* Model: `Verif/Uname/Model.lean`: `uname` with its host name, `Lines::next` and the copying into the arrays; files are given by their contents, UTF-8 is a parameter..
* Proof: Directly, line by line; specification is `Holds` (an array of 65 bytes with a string and a NUL) and the text of the file as names joined with line feeds..
* Theorems: `C177_bounds`, `C177_crlf`, `C177_failure`, `C177_long_host`, `C177_uname_partial`.
* The code departs from the property: `C177_newline_violation`.
* The line feed that ends /etc/hostname is kept as part of the node name (C177_newline_violation); the rest is proved without restriction.

### C178 ioctl on terminals and descriptors (partial)

* Model: `Verif/Ioctl/Model.lean`: `ioctl_inner` with all its requests, `sys_call_read`, `sys_call_write`, `IoctlBuffer`; the device (what `fcntl` and the calls with a verb do) and `drm::ioctl` are parameters..
* Proof: Case analysis of the request against tables given separately with literal numbers; for `O_NONBLOCK` bit by bit; set and get on a terminal that keeps what it is given..
* Theorems: `C178_buffer`, `C178_command`, `C178_get`, `C178_nonblock`, `C178_set`, `C178_set_get`, `C178_sid`, `C178_unknown`.
* The code departs from the property: `C178_ignored_violation`, `C178_sid_violation`.
* SIOCATMARK and TIOCSCTTY report success and do nothing, FIONREAD is unknown (C178_ignored_violation); TIOCGSID stores -1 and succeeds when the session cannot be found (C178_sid_violation). The device and the graphics requests behind drm::ioctl are parameters.

### C179 sysconf answers (partial)

* Model: `Verif/Sysconf/Model.lean`: `sysconf_impl` with its table, `get_cpu_count` on the contents of the file, `str::parse` for numbers; memory and page size are parameters..
* Proof: Induction over the lines before the one looked for and over the digits; the number is specified as the sum of digits times powers of ten, the minima as a table from POSIX..
* Theorems: `C179_cpus_partial`, `C179_memory`, `C179_minima`, `C179_no_number`, `C179_one`, `C179_unknown`.
* The code departs from the property: `C179_cut_violation`, `C179_memory_violation`.
* Only the first 128 bytes of the processor file are looked at, and a number cut there is taken as it is (C179_cut_violation); if the memory cannot be asked for, the answer is -1 without an error (C179_memory_violation). Only ASCII white space is trimmed in the model.
