{
 "claims": [
  {
   "property": "C01",
   "status": "proved",
   "theorems": [
    "Verif.Sync.Mutex.C01_mutual_exclusion",
    "Verif.Sync.Mutex.C01_try_lock_exact"
   ],
   "note": ""
  },
  {
   "property": "C02",
   "status": "proved",
   "theorems": [
    "Verif.Sync.Mutex.C02_sleeper_accounted",
    "Verif.Sync.Mutex.C02_no_stranded_sleeper",
    "Verif.Sync.Mutex.C02_sleeper_eventually_woken"
   ],
   "note": ""
  },
  {
   "property": "C03",
   "status": "proved",
   "theorems": [
    "Verif.Sync.Once.C03_at_most_once",
    "Verif.Sync.Once.C03_return_after_completion"
   ],
   "note": ""
  },
  {
   "property": "C04",
   "status": "proved",
   "theorems": [
    "Verif.Sync.Once.C04_sleeper_accounted",
    "Verif.Sync.Once.C04_sleeper_eventually_woken"
   ],
   "note": ""
  },
  {
   "property": "C05",
   "status": "proved",
   "theorems": [
    "Verif.Sync.Sem.C05_conservation",
    "Verif.Sync.Sem.C05_no_overdraw",
    "Verif.Sync.Sem.C05_conservation_mod",
    "Verif.Sync.Sem.C05_overflow_violation"
   ],
   "note": "No overdraw proved without bounds; exact balance while fewer than 2^32 tokens were supplied, modulo 2^32 always. Beyond that range sem_post wraps and tokens are lost (witness proved)."
  },
  {
   "property": "C06",
   "status": "partial",
   "theorems": [
    "Verif.Sync.Sem.C06_sleeper_accounted",
    "Verif.Sync.Sem.C06_sleeper_eventually_woken",
    "Verif.Sync.Sem.C06_wait_results",
    "Verif.Sync.Sem.C06_spurious_eagain_violation",
    "Verif.Sync.Sem.C06_trywait_never_sleeps"
   ],
   "note": "No stranded waiter proved (safety and liveness). sem_wait can however fail with EAGAIN although nothing went wrong: witness proved."
  },
  {
   "property": "C07",
   "status": "proved",
   "theorems": [
    "Verif.Sync.RwLock.C07_writer_excludes_all",
    "Verif.Sync.RwLock.C07_state_exact",
    "Verif.Sync.RwLock.C07_try_busy_only_if_held"
   ],
   "note": ""
  },
  {
   "property": "C08",
   "status": "proved",
   "theorems": [
    "Verif.Sync.RwLock.C08_sleeper_accounted",
    "Verif.Sync.RwLock.C08_sleeper_woken_after_release"
   ],
   "note": ""
  },
  {
   "property": "C09",
   "status": "partial",
   "theorems": [
    "Verif.Sync.PMutex.C09_mutual_exclusion",
    "Verif.Sync.PMutex.C09_success_acquires",
    "Verif.Sync.PMutex.C09_nonrecursive_once",
    "Verif.Sync.PMutex.C09_free_iff_all_released",
    "Verif.Sync.PMutex.C09_recursion_counted",
    "Verif.Sync.PMutex.C09_unlock_checks_owner",
    "Verif.Sync.PMutex.C09_no_self_deadlock",
    "Verif.Sync.PMutex.C09_trylock_busy",
    "Verif.Sync.PMutex.C09_errorcheck_relock_fails",
    "Verif.Sync.PMutex.C09_errorcheck_eagain_violation"
   ],
   "note": "Everything proved except the error number: relocking an error-checking mutex reports EAGAIN, POSIX says EDEADLK (witness proved)."
  },
  {
   "property": "C10",
   "status": "proved",
   "theorems": [
    "Verif.Sync.PMutex.C10_sleeper_accounted",
    "Verif.Sync.PMutex.C10_sleeper_woken_after_unlock"
   ],
   "note": ""
  },
  {
   "property": "C11",
   "status": "partial",
   "theorems": [
    "Verif.Sync.Cond.C11_signal_not_lost_partial",
    "Verif.Sync.Cond.C11_signal_before_sleep_partial",
    "Verif.Sync.Cond.C11_signalled_thread_wakes_partial",
    "Verif.Sync.Cond.C11_returns_with_mutex",
    "Verif.Sync.Cond.C11_unlocked_signal_lost_violation"
   ],
   "note": "Proved for histories with fewer than 2^32 signals (the generation counter is 32 bits). Without the mutex held, which the property excludes but POSIX allows, a wakeup can be lost: witness proved."
  },
  {
   "property": "C12",
   "status": "partial",
   "theorems": [
    "Verif.Sync.Barrier.C12_nobody_passes_early",
    "Verif.Sync.Barrier.C12_round_size",
    "Verif.Sync.Barrier.C12_at_most_one_serial",
    "Verif.Sync.Barrier.C12_exactly_one_serial",
    "Verif.Sync.Barrier.C12_round_results",
    "Verif.Sync.Barrier.C12_serial_unique",
    "Verif.Sync.Barrier.C12_completed_round_not_stranded_partial"
   ],
   "note": "Entry and serial-thread claims proved without bounds. That sleepers of a completed round are woken is proved for fewer than 2^32 rounds."
  },
  {
   "property": "C13",
   "status": "proved",
   "theorems": [
    "Verif.Sync.Spin.C13_mutual_exclusion",
    "Verif.Sync.Spin.C13_trylock_exact",
    "Verif.Sync.Spin.C13_free_lock_obtainable"
   ],
   "note": ""
  },
  {
   "property": "C14",
   "status": "proved",
   "theorems": [
    "Verif.Sync.Join.C14_join_delivers_result",
    "Verif.Sync.Join.C14_joiner_not_stranded",
    "Verif.Sync.Join.C14_joiner_eventually_woken"
   ],
   "note": ""
  },
  {
   "property": "C15",
   "status": "proved",
   "theorems": [
    "Verif.Thread.Tls.C15_getspecific",
    "Verif.Thread.Tls.C15_spec_total",
    "Verif.Thread.Tls.C15_setspecific_result",
    "Verif.Thread.Tls.C15_keys_unique"
   ],
   "note": ""
  },
  {
   "property": "C16",
   "status": "proved",
   "theorems": [
    "Verif.Thread.Tls.C16_pass_calls",
    "Verif.Thread.Tls.C16_pass_exact",
    "Verif.Thread.Tls.C16_value_delivered",
    "Verif.Thread.Tls.C16_passes",
    "Verif.Thread.Tls.C16_run",
    "Verif.Thread.Tls.C16_reachable"
   ],
   "note": ""
  },
  {
   "property": "C17",
   "status": "proved",
   "theorems": [
    "Verif.Str.C17_memcpy",
    "Verif.Str.C17_memmove",
    "Verif.Str.C17_memset",
    "Verif.Str.C17_patch_meaning",
    "Verif.Str.C17_memccpy"
   ],
   "note": ""
  },
  {
   "property": "C18",
   "status": "proved",
   "theorems": [
    "Verif.Str.C18_memcmp",
    "Verif.Str.C18_strncmp",
    "Verif.Str.C18_strcmp"
   ],
   "note": ""
  },
  {
   "property": "C19",
   "status": "partial",
   "theorems": [
    "Verif.Str.C19_memchr",
    "Verif.Str.C19_memrchr",
    "Verif.Str.C19_strchr",
    "Verif.Str.C19_strchrnul",
    "Verif.Str.C19_strrchr_partial",
    "Verif.Str.C19_strrchr_nul_violation"
   ],
   "note": "strrchr(s, 0) returns NULL instead of the terminator (witness proved); everything else proved in full."
  },
  {
   "property": "C20",
   "status": "partial",
   "theorems": [
    "Verif.Str.C20_memmem",
    "Verif.Str.C20_strstr_partial",
    "Verif.Str.C20_strcasestr_partial",
    "Verif.Str.C20_strstr_empty_violation",
    "Verif.Str.C20_strcasestr_violation"
   ],
   "note": "strstr of an empty needle in an empty string returns NULL (witness proved), strcasestr's case mask confuses non-letters (witness proved); the remaining cases proved."
  },
  {
   "property": "C21",
   "status": "proved",
   "theorems": [
    "Verif.Str.C21_strspn",
    "Verif.Str.C21_strcspn",
    "Verif.Str.C21_strpbrk",
    "Verif.Str.C21_strtok",
    "Verif.Str.C21_strtok_run_unique",
    "Verif.Str.C21_strsep",
    "Verif.Str.C21_tokens_unique",
    "Verif.Str.C21_fields_unique"
   ],
   "note": ""
  },
  {
   "property": "C22",
   "status": "proved",
   "theorems": [
    "Verif.Str.C22_strlen",
    "Verif.Str.C22_strnlen",
    "Verif.Str.C22_strcpy",
    "Verif.Str.C22_stpcpy",
    "Verif.Str.C22_stpncpy",
    "Verif.Str.C22_strncpy",
    "Verif.Str.C22_strncat",
    "Verif.Str.C22_strcat",
    "Verif.Str.C22_strncat_string",
    "Verif.Str.C22_strlcpy",
    "Verif.Str.C22_strlcat",
    "Verif.Str.C22_strlcpy_bound",
    "Verif.Str.C22_strndup",
    "Verif.Str.C22_strxfrm"
   ],
   "note": ""
  },
  {
   "property": "C23",
   "status": "partial",
   "theorems": [
    "Verif.Stdlib.C23_strtol_partial",
    "Verif.Stdlib.C23_strtoul_partial",
    "Verif.Stdlib.C23_no_conversion",
    "Verif.Stdlib.C23_bad_base",
    "Verif.Stdlib.C23_strtoimax_partial",
    "Verif.Stdlib.C23_octal_violation",
    "Verif.Stdlib.C23_hex_violation",
    "Verif.Stdlib.C23_long_min_violation",
    "Verif.Stdlib.C23_strtoimax_violation",
    "Verif.Stdlib.C23_atoi"
   ],
   "note": "Proved for every text and base except: base-8 numerals without a leading 0, a dangling 0x, and LONG_MIN (errno ERANGE although the value is right); strtoimax above INTMAX_MAX. Each exception has a violation theorem with a witness."
  },
  {
   "property": "C24",
   "status": "proved",
   "theorems": [
    "Verif.Stdlib.C24_a64l",
    "Verif.Stdlib.C24_l64a",
    "Verif.Stdlib.C24_roundtrip",
    "Verif.Stdlib.C24_invalid"
   ],
   "note": ""
  },
  {
   "property": "C25",
   "status": "proved",
   "theorems": [
    "Verif.Stdlib.C25_permutation",
    "Verif.Stdlib.C25_sorted"
   ],
   "note": ""
  },
  {
   "property": "C26",
   "status": "proved",
   "theorems": [
    "Verif.Stdlib.C26_bsearch",
    "Verif.Stdlib.C26_sorted_array"
   ],
   "note": ""
  },
  {
   "property": "C27",
   "status": "partial",
   "theorems": [
    "Verif.Stdlib.C27_getenv",
    "Verif.Stdlib.C27_setenv",
    "Verif.Stdlib.C27_putenv",
    "Verif.Stdlib.C27_unsetenv",
    "Verif.Stdlib.C27_history",
    "Verif.Stdlib.C27_unsetenv_violation",
    "Verif.Stdlib.C27_setenv_equals_violation"
   ],
   "note": "Proved for every history from every initial environment without duplicate names. With a duplicate name unsetenv leaves the second entry visible, and setenv accepts a name containing '=' and changes the variable before the '='; both witnessed."
  },
  {
   "property": "C28",
   "status": "partial",
   "theorems": [
    "Verif.Stdlib.C28_register",
    "Verif.Stdlib.C28_exit_partial",
    "Verif.Stdlib.C28_quick_exit_partial",
    "Verif.Stdlib.C28_nested_violation"
   ],
   "note": "Proved for all handlers registered before exit starts, whatever the handlers do to the table. A handler registered by a handler during exit is accepted but never called (witness proved)."
  },
  {
   "property": "C29",
   "status": "proved",
   "theorems": [
    "Verif.Stdlib.C29_global",
    "Verif.Stdlib.C29_array",
    "Verif.Stdlib.C29_double",
    "Verif.Stdlib.C29_drand",
    "Verif.Stdlib.C29_srand48",
    "Verif.Stdlib.C29_seed48",
    "Verif.Stdlib.C29_lcong48",
    "Verif.Stdlib.C29_state"
   ],
   "note": ""
  },
  {
   "property": "C30",
   "status": "proved",
   "theorems": [
    "Verif.Stdlib.C30_random",
    "Verif.Stdlib.C30_bound",
    "Verif.Stdlib.C30_srandom",
    "Verif.Stdlib.C30_setstate",
    "Verif.Stdlib.C30_initstate",
    "Verif.Stdlib.C30_initstate_small",
    "Verif.Stdlib.C30_call",
    "Verif.Stdlib.C30_resume",
    "Verif.Stdlib.C30_start"
   ],
   "note": "random, srandom, initstate and setstate over byte memory, refining a pointer-free machine of generators; C30_resume is the switching claim. The lock (try_lock().expect) is not modelled: calls are sequential."
  },
  {
   "property": "C31",
   "status": "proved",
   "theorems": [
    "Verif.Wchar.C31_wcrtomb",
    "Verif.Wchar.C31_wcrtomb_invalid",
    "Verif.Wchar.C31_mbrtowc",
    "Verif.Wchar.C31_round_trip"
   ],
   "note": "all Unicode scalar values; core::str UTF-8 functions written out from their published source"
  },
  {
   "property": "C32",
   "status": "proved",
   "theorems": [
    "Verif.Wchar.C32_mbrtowc",
    "Verif.Wchar.C32_unique"
   ],
   "note": "all byte sequences and limits at least 1"
  },
  {
   "property": "C33",
   "status": "partial",
   "theorems": [
    "Verif.Time.C33_add_partial",
    "Verif.Time.C33_add_normal",
    "Verif.Time.C33_add_negative",
    "Verif.Time.C33_add_overflow_violation",
    "Verif.Time.C33_add_negative_violation",
    "Verif.Time.C33_subtract_partial",
    "Verif.Time.C33_subtract_violation",
    "Verif.Time.C33_deadline_partial",
    "Verif.Time.C33_deadline_violation"
   ],
   "note": "add exact for non-negative operands with representable sum, subtract exact when no borrow is needed; with a borrow the result is always wrong by twice the missing nanoseconds, sums at the upper end wrap, deadlines are converted wrongly (violation theorems)"
  },
  {
   "property": "C34",
   "status": "partial",
   "theorems": [
    "Verif.Stdio.C34_snprintf_partial",
    "Verif.Stdio.C34_snprintf_zero",
    "Verif.Stdio.C34_return",
    "Verif.Stdio.C34_one_violation",
    "Verif.Stdio.C34_empty_violation",
    "Verif.Stdio.C34_sprintf_partial"
   ],
   "note": "Proved for n >= 2 and non-empty output, and for n = 0; for n = 1 and for empty output the code leaves the buffer unterminated (violation theorems). Writer and buffer do not overlap format or arguments."
  },
  {
   "property": "C35",
   "status": "partial",
   "theorems": [
    "Verif.Stdio.C35_printf_partial",
    "Verif.Stdio.C35_plain_signed",
    "Verif.Stdio.C35_space_plus_violation",
    "Verif.Stdio.C35_precision_sign_violation",
    "Verif.Stdio.C35_zero_plus_violation",
    "Verif.Stdio.C35_zero_left_violation",
    "Verif.Stdio.C35_zero_precision_plus_violation",
    "Verif.Stdio.C35_zero_star_precision_violation",
    "Verif.Stdio.C35_octal_zero_violation",
    "Verif.Stdio.C35_octal_precision_violation",
    "Verif.Stdio.C35_zero_hex_violation",
    "Verif.Stdio.C35_zero_octal_violation",
    "Verif.Stdio.C35_empty_precision_violation",
    "Verif.Stdio.C35_zero_negative_width_violation"
   ],
   "note": "Whole formats (parser, two passes over the arguments, layout) are proved to print what ISO C says for every integer conversion inside Call.SignedOk / Call.UnsignedOk; outside, the code departs from ISO C, shown by one violation theorem per bug. Positional arguments (%1$d) and floating point are not covered."
  },
  {
   "property": "C36",
   "status": "partial",
   "theorems": [
    "Verif.Stdio.C36_new",
    "Verif.Stdio.C36_getc",
    "Verif.Stdio.C36_ungetc",
    "Verif.Stdio.C36_fread",
    "Verif.Stdio.C36_fgets",
    "Verif.Stdio.C36_getdelim_partial",
    "Verif.Stdio.C36_history",
    "Verif.Stdio.C36_read_all",
    "Verif.Stdio.C36_ungetc_eof_violation",
    "Verif.Stdio.C36_unbuffered_violation",
    "Verif.Stdio.C36_getdelim_violation"
   ],
   "note": "getc, ungetc, fread, fgets and their arbitrary mixtures (C36_history) for every kernel answer pattern; getdelim proved for streams without pushed-back bytes. ungetc(EOF) pushes 0xff, _IONBF streams read as empty, getdelim ignores pushed-back bytes: violations proved."
  },
  {
   "property": "C37",
   "status": "partial",
   "theorems": [
    "Verif.Stdio.C37_fwrite",
    "Verif.Stdio.C37_putc",
    "Verif.Stdio.C37_fputs",
    "Verif.Stdio.C37_puts_partial",
    "Verif.Stdio.C37_fflush",
    "Verif.Stdio.C37_fclose",
    "Verif.Stdio.C37_line_buffered",
    "Verif.Stdio.C37_history",
    "Verif.Stdio.C37_fclose_violation",
    "Verif.Stdio.C37_putc_violation",
    "Verif.Stdio.C37_puts_violation"
   ],
   "note": "fwrite, putc, fputs, fflush, fclose for full, line and no buffering, any sequence of calls and any short-write/error pattern. fclose reports lost output by 1 instead of EOF, fputc(-1) returns EOF though the byte was accepted, puts reports success though the kernel accepted nothing of the newline: violations proved."
  },
  {
   "property": "C38",
   "status": "partial",
   "theorems": [
    "Verif.Stdio.C38_fgets_partial",
    "Verif.Stdio.C38_pushed_back_violation",
    "Verif.Stdio.C38_end_violation",
    "Verif.Stdio.C38_newline_violation"
   ],
   "note": "Proved if nothing was pushed back, or the pushed-back bytes hold no newline, leave room and are followed by more of the file. Otherwise fgets reads past a pushed-back newline, or returns NULL although it stored pushed-back bytes; at the end of the file it overwrites the first byte of the array: violations proved."
  },
  {
   "property": "C39",
   "status": "partial",
   "theorems": [
    "Verif.Stdio.C39_ftell_read",
    "Verif.Stdio.C39_ftell_write",
    "Verif.Stdio.C39_fseek_partial",
    "Verif.Stdio.C39_seek_cur_partial",
    "Verif.Stdio.C39_seek_set",
    "Verif.Stdio.C39_fseek_violation"
   ],
   "note": "ftell proved for reading and writing streams; SEEK_SET and SEEK_END proved in full, SEEK_CUR without pushed-back bytes; with them the new position is off by their number (violation)."
  },
  {
   "property": "C40",
   "status": "proved",
   "theorems": [
    "Verif.Net.C40_host_to",
    "Verif.Net.C40_to_host",
    "Verif.Net.C40_inverse"
   ],
   "note": "htons/htonl/ntohs/ntohl, htobe/htole/betoh/letoh families, on 64-bit little-endian targets."
  },
  {
   "property": "C41",
   "status": "partial",
   "theorems": [
    "Verif.Net.C41_aton",
    "Verif.Net.C41_aton_partial",
    "Verif.Net.C41_addr",
    "Verif.Net.C41_addr_partial",
    "Verif.Net.C41_network",
    "Verif.Net.C41_plus_violation",
    "Verif.Net.C41_pton",
    "Verif.Net.C41_pton_partial",
    "Verif.Net.C41_pton_violation",
    "Verif.Net.C41_ntop",
    "Verif.Net.C41_ntop_error",
    "Verif.Net.C41_roundtrip",
    "Verif.Net.C41_space_violation",
    "Verif.Net.C41_makeaddr_violation",
    "Verif.Net.C41_netof_violation"
   ],
   "note": "inet_aton, inet_addr, inet_pton(AF_INET) and inet_ntop over memory: every well-formed text accepted with the right bytes, everything else without a + sign refused, text read back for every address. Violated: + signs are accepted; ENOSPC although the text fits; inet_netof is inet_lnaof and works in the wrong byte order, so the parts do not compose."
  },
  {
   "property": "C42",
   "status": "proved",
   "theorems": [
    "Verif.Signal.C42_init",
    "Verif.Signal.C42_add",
    "Verif.Signal.C42_del",
    "Verif.Signal.C42_member",
    "Verif.Signal.C42_invalid",
    "Verif.Signal.C42_sequence"
   ],
   "note": "sigemptyset, sigfillset, sigaddset, sigdelset, sigismember, incl. invalid signal numbers and arbitrary call sequences."
  },
  {
   "property": "C43",
   "status": "proved",
   "theorems": [
    "Verif.Path.C43_basename",
    "Verif.Path.C43_dirname",
    "Verif.Path.C43_null",
    "Verif.Path.C43_split_unique"
   ],
   "note": "basename and dirname for every string and NULL; specification as a split of the path, shown to be unique."
  },
  {
   "property": "C44",
   "status": "partial",
   "theorems": [
    "Verif.Getopt.C44_getopt_partial",
    "Verif.Getopt.C44_silent",
    "Verif.Getopt.C44_colon_violation",
    "Verif.Getopt.C44_message_violation",
    "Verif.Getopt.C44_long_partial",
    "Verif.Getopt.C44_long_exact_violation",
    "Verif.Getopt.C44_long_unknown_violation",
    "Verif.Getopt.C44_long_value_violation"
   ],
   "note": "Proved for short options without a stray '-:'; long options whose name is matched first. Violations: '-:' is accepted as an option (colon), messages despite leading ':' (message), first prefix instead of exact match (long_exact), unknown long names parsed as short options (long_unknown), values ignored for options without argument (long_value)."
  },
  {
   "property": "C45",
   "status": "partial",
   "theorems": [
    "Verif.Util.C45_new",
    "Verif.Util.C45_with_capacity",
    "Verif.Util.C45_extend",
    "Verif.Util.C45_push",
    "Verif.Util.C45_reserve",
    "Verif.Util.C45_truncate",
    "Verif.Util.C45_pop",
    "Verif.Util.C45_shrink_partial",
    "Verif.Util.C45_shrink_violation",
    "Verif.Util.C45_append_violation",
    "Verif.Util.C45_asprintf_partial",
    "Verif.Util.C45_asprintf_text",
    "Verif.Util.C45_asprintf_violation"
   ],
   "note": "new, with_capacity, reserve, push, extend_from_slice, truncate, pop, and shrink_to_fit of non-empty vectors, for every sound allocator; asprintf with enough memory yields exactly the text. Violated by append (loses the elements), shrink_to_fit of an empty vector (leak) and asprintf without memory (panics)."
  },
  {
   "property": "C46",
   "status": "partial",
   "theorems": [
    "Verif.Netdb.C46_seek",
    "Verif.Netdb.C46_next",
    "Verif.Netdb.C46_lines_partial",
    "Verif.Netdb.C46_error",
    "Verif.Netdb.C46_last_violation"
   ],
   "note": "RawLineBuffer over a kernel that delivers the file in arbitrary parts: every line once, in order, with its offset (C46_next, C46_lines_partial); seek and errors. Violated for a last line without newline, which is returned again by every further call (C46_last_violation)."
  },
  {
   "property": "C47",
   "status": "partial",
   "theorems": [
    "Verif.Dns.C47_parse_partial",
    "Verif.Dns.C47_compile_partial",
    "Verif.Dns.C47_roundtrip_partial",
    "Verif.Dns.C47_no_panic",
    "Verif.Dns.C47_terminates_partial",
    "Verif.Dns.C47_loop_violation",
    "Verif.Dns.C47_suffix_violation",
    "Verif.Dns.C47_root_violation",
    "Verif.Dns.C47_answers_violation"
   ],
   "note": "Messages in the RFC 1035 format (labels, or a lone backward pointer) are parsed exactly (C47_parse_partial), compile emits that format for queries and parse reads it back, no packet makes parse panic, and it ends on all packets without pointer bytes. Disproved: self-pointer loops for ever, a label followed by a pointer is misread, the root name gets an extra zero byte, answers are counted but not emitted."
  },
  {
   "property": "C48",
   "status": "proved",
   "theorems": [
    "Verif.Stdlib.C48_calloc",
    "Verif.Stdlib.C48_reallocarray",
    "Verif.Stdlib.C48_reallocarray_null",
    "Verif.Stdlib.C48_aligned_alloc",
    "Verif.Stdlib.C48_posix_memalign"
   ],
   "note": "allocator crate (dlmalloc) is a parameter with a stated contract, inhabited by two instances"
  },
  {
   "property": "C49",
   "status": "proved",
   "theorems": [
    "Verif.Ctype.C49_isupper",
    "Verif.Ctype.C49_islower",
    "Verif.Ctype.C49_isdigit",
    "Verif.Ctype.C49_isspace",
    "Verif.Ctype.C49_isblank",
    "Verif.Ctype.C49_ispunct",
    "Verif.Ctype.C49_isxdigit",
    "Verif.Ctype.C49_iscntrl",
    "Verif.Ctype.C49_isalpha",
    "Verif.Ctype.C49_isalnum",
    "Verif.Ctype.C49_isgraph",
    "Verif.Ctype.C49_isprint",
    "Verif.Ctype.C49_partition",
    "Verif.Ctype.C49_tolower",
    "Verif.Ctype.C49_toupper",
    "Verif.Ctype.C49_toascii"
   ],
   "note": ""
  },
  {
   "property": "C50",
   "status": "partial",
   "theorems": [
    "Verif.Ctype.C50_strcasecmp_partial",
    "Verif.Ctype.C50_strncasecmp_partial",
    "Verif.Ctype.C50_equal",
    "Verif.Ctype.C50_equal_n",
    "Verif.Ctype.C50_order",
    "Verif.Ctype.C50_order_violation"
   ],
   "note": "Equality up to letter case, ASCII order and the total-order laws are proved for all strings; the order of strings with bytes >= 128 is wrong (signed comparison), shown by C50_order_violation."
  },
  {
   "property": "C51",
   "status": "proved",
   "theorems": [
    "Verif.Ctype.C51_ffs",
    "Verif.Ctype.C51_ffs_dvd"
   ],
   "note": ""
  },
  {
   "property": "C52",
   "status": "proved",
   "theorems": [
    "Verif.Sync.Cancel.C52_request_not_lost",
    "Verif.Sync.Cancel.C52_request_remembered",
    "Verif.Sync.Cancel.C52_enable_sees_request"
   ],
   "note": ""
  },
  {
   "property": "C53",
   "status": "partial",
   "theorems": [
    "Verif.Str.C53_wcslen",
    "Verif.Str.C53_wcsnlen",
    "Verif.Str.C53_wcscpy",
    "Verif.Str.C53_wcpcpy",
    "Verif.Str.C53_wcsncpy",
    "Verif.Str.C53_wcpncpy",
    "Verif.Str.C53_wcsncat",
    "Verif.Str.C53_wcscat",
    "Verif.Str.C53_wcsdup",
    "Verif.Str.C53_wcsncmp_partial",
    "Verif.Str.C53_wcscmp_partial",
    "Verif.Str.C53_wcscmp_violation",
    "Verif.Str.C53_wcsncmp_equal",
    "Verif.Str.C53_wmemcmp_partial",
    "Verif.Str.C53_wcschr",
    "Verif.Str.C53_wcsrchr_partial",
    "Verif.Str.C53_wcsrchr_nul_violation",
    "Verif.Str.C53_wmemchr",
    "Verif.Str.C53_wcsstr",
    "Verif.Str.C53_wcsspn",
    "Verif.Str.C53_wcscspn",
    "Verif.Str.C53_wcspbrk",
    "Verif.Str.C53_wcstok",
    "Verif.Str.C53_wmemset",
    "Verif.Str.C53_wmemcpy",
    "Verif.Str.C53_wmemmove"
   ],
   "note": "All wide functions proved except: wcsrchr(ws, 0) returns NULL (C53_wcsrchr_nul_violation) and the wcscmp/wmemcmp difference wraps for far-apart elements (C53_wcscmp_violation)."
  },
  {
   "property": "C54",
   "status": "partial",
   "theorems": [
    "Verif.Stdlib.C54_wcstol_partial",
    "Verif.Stdlib.C54_wcstoul_partial",
    "Verif.Stdlib.C54_overflow_partial",
    "Verif.Stdlib.C54_overflow_violation",
    "Verif.Stdlib.C54_no_conversion_violation",
    "Verif.Stdlib.C54_hex_violation"
   ],
   "note": "Proved for numerals whose value is representable. On overflow errno is right but the end pointer is not stored and the signed functions return -1; without a numeral, or with a dangling 0x, the end pointer is wrong. Each has a violation theorem with a witness."
  },
  {
   "property": "C55",
   "status": "partial",
   "theorems": [
    "Verif.Poll.C55_select_partial",
    "Verif.Poll.C55_range",
    "Verif.Poll.C55_timeout_partial",
    "Verif.Poll.C55_forever",
    "Verif.Poll.C55_many_violation",
    "Verif.Poll.C55_hup_violation",
    "Verif.Poll.C55_unrequested_violation",
    "Verif.Poll.C55_count_violation",
    "Verif.Poll.C55_failure_violation",
    "Verif.Poll.C55_round_violation",
    "Verif.Poll.C55_timeout_violation"
   ],
   "note": "Proved when fewer than 32 descriptors are ready, without hangups and errors. Violations: 32-event limit (many), hangup not readable (hup), exceptfds gets descriptors not asked for (unrequested), files in two sets counted once (count), sets changed on failure (failure), timeout rounding and truncation."
  },
  {
   "property": "C56",
   "status": "partial",
   "theorems": [
    "Verif.Sync.Join.C56_use_after_free_violation",
    "Verif.Sync.Join.C56_not_released_before_exit_partial",
    "Verif.Sync.Join.C56_late_detach_leaks_violation"
   ],
   "note": "False for this code: the exiting thread touches the control block after a joiner may have released it, and a late detach leaks it (witnesses proved). Proved: not released before the thread publishes its result."
  },
  {
   "property": "C57",
   "status": "partial",
   "theorems": [
    "Verif.Sync.Cancel.C57_cancelled_while_disabled_violation",
    "Verif.Sync.Cancel.C57_disabled_respected_partial"
   ],
   "note": "False for this code: the signal handler does not look at the enabled flag (witness proved). All other paths respect it."
  },
  {
   "property": "C58",
   "status": "partial",
   "theorems": [
    "Verif.Stdlib.C58_global_realloc_partial",
    "Verif.Stdlib.C58_global_realloc_violation"
   ],
   "note": "holds for alignment at most 16; above that realloc frees the old block although it reports failure (violation)"
  },
  {
   "property": "C59",
   "status": "partial",
   "theorems": [
    "Verif.Wchar.C59_mbsnrtowcs",
    "Verif.Wchar.C59_mbsnrtowcs_truncated",
    "Verif.Wchar.C59_mbsnrtowcs_bytes",
    "Verif.Wchar.C59_mbsnrtowcs_count_partial",
    "Verif.Wchar.C59_mbsrtowcs_src_violation",
    "Verif.Wchar.C59_mbsrtowcs_error_violation",
    "Verif.Wchar.C59_wcsnrtombs",
    "Verif.Wchar.C59_wcsnrtombs_truncated",
    "Verif.Wchar.C59_wcsnrtombs_invalid",
    "Verif.Wchar.C59_wcsnrtombs_count_partial",
    "Verif.Wchar.C59_wcsrtombs_src_violation"
   ],
   "note": "characters, counts, *src, truncation and invalid input proved for a destination; mbsnrtowcs returns 1 for an invalid sequence, null-destination calls change *src, counts partial (violations)"
  },
  {
   "property": "C60",
   "status": "partial",
   "theorems": [
    "Verif.Wchar.C60_restart_partial",
    "Verif.Wchar.C60_restart_violation"
   ],
   "note": "mbstate_t is empty, so only whole characters decode; a split character is reported as -2 and then -1 (violation)"
  },
  {
   "property": "C61",
   "status": "partial",
   "theorems": [
    "Verif.Wchar.C61_mblen",
    "Verif.Wchar.C61_mbtowc_partial",
    "Verif.Wchar.C61_mbtowc_violation",
    "Verif.Wchar.C61_wctomb",
    "Verif.Wchar.C61_btowc"
   ],
   "note": "mblen, wctomb, btowc, wctob exact; mbtowc returns -2 for an incomplete character (violation)"
  },
  {
   "property": "C62",
   "status": "partial",
   "theorems": [
    "Verif.Stdio.C62_printf_text",
    "Verif.Stdio.C62_snprintf",
    "Verif.Stdio.C62_wide_partial",
    "Verif.Stdio.C62_wide_precision_violation",
    "Verif.Stdio.C62_unterminated_violation",
    "Verif.Stdio.C62_null"
   ],
   "note": "Full for %%, %c, %s, %n and text; %ls only without precision (with one the code cuts a character too many, violation theorem); %s of an unterminated array faults (violation theorem)."
  },
  {
   "property": "C63",
   "status": "proved",
   "theorems": [
    "Verif.Signal.C63_sigprocmask",
    "Verif.Signal.C63_bad_how",
    "Verif.Signal.C63_query",
    "Verif.Signal.C63_always_deliverable"
   ],
   "note": "With signals posted by other threads before each atomic access; the trampoline itself (assembly) is not modelled, only that it is entered."
  },
  {
   "property": "C64",
   "status": "partial",
   "theorems": [
    "Verif.Signal.C64_sigsuspend_partial",
    "Verif.Signal.C64_sigwait_partial",
    "Verif.Signal.C64_sigsuspend_violation",
    "Verif.Signal.C64_sigwait_violation"
   ],
   "note": "Proved for temporary masks whose SIGKILL/SIGSTOP bits already agree; otherwise violated (C64_sigsuspend_violation, C64_sigwait_violation): restoring the mask adds a difference computed from the wrong current value, and carries corrupt other signals' bits."
  },
  {
   "property": "C65",
   "status": "proved",
   "theorems": [
    "Verif.Stdlib.C65_step",
    "Verif.Stdlib.C65_history"
   ],
   "note": "Assumes the contract Allocator.Sound of the dlmalloc crate (not modelled itself)."
  },
  {
   "property": "C66",
   "status": "partial",
   "theorems": [
    "Verif.Stdio.C66_exit_partial",
    "Verif.Stdio.C66_exit_violation",
    "Verif.Stdio.C66_fflush_violation"
   ],
   "note": "stdout and stderr are flushed; every other stream is skipped by exit and by fflush(NULL): violations proved."
  },
  {
   "property": "C67",
   "status": "proved",
   "theorems": [
    "Verif.Stdio.C67_file"
   ],
   "note": "Refinement of a byte array with a position for every sequence of getc, putc, fread, fwrite, fputs, fseek, ftell and fflush with a seek or flush between the modes, in the program's memory too. Kernel errors are covered call by call in C36 and C37; O_APPEND is not modelled."
  },
  {
   "property": "C68",
   "status": "partial",
   "theorems": [
    "Verif.Stdio.C68_getc",
    "Verif.Stdio.C68_clearerr",
    "Verif.Stdio.C68_fseek",
    "Verif.Stdio.C68_putc",
    "Verif.Stdio.C68_putc_error",
    "Verif.Stdio.C68_fflush",
    "Verif.Stdio.C68_line_violation",
    "Verif.Stdio.C68_ungetc_violation",
    "Verif.Stdio.C68_getdelim_violation"
   ],
   "note": "getc, clearerr, fseek, putc, fflush proved; ungetc keeps end-of-file set, getdelim clears all other flags including the one marking stdin static, and a line the kernel refuses is not recorded on a line-buffered stream: violations proved."
  },
  {
   "property": "C69",
   "status": "partial",
   "theorems": [
    "Verif.Netdb.C69_get",
    "Verif.Netdb.C69_enumerate_partial",
    "Verif.Netdb.C69_lookup_partial",
    "Verif.Netdb.C69_fields",
    "Verif.Netdb.C69_accept",
    "Verif.Netdb.C69_rewind_violation",
    "Verif.Netdb.C69_last_violation",
    "Verif.Netdb.C69_comment_violation",
    "Verif.Netdb.C69_panic_violation",
    "Verif.Netdb.C69_protobyname_violation",
    "Verif.Netdb.C69_protobyname_partial"
   ],
   "note": "Enumeration and searches over the line reader for all four databases. Missing, each disproved: set\u2026ent after the file was closed does not rewind (networks, protocols, services); an unterminated last line is returned for ever or hangs the call if it is a comment; one-field lines panic; getprotobyname loops for ever if the file stays open and the first entry is not the one wanted. getservent takes a commented-out service for an entry (example)."
  },
  {
   "property": "C70",
   "status": "partial",
   "theorems": [
    "Verif.Poll.C70_poll_partial",
    "Verif.Poll.C70_timeout_partial",
    "Verif.Poll.C70_many_violation",
    "Verif.Poll.C70_twice_violation",
    "Verif.Poll.C70_file_violation",
    "Verif.Poll.C70_closed_violation",
    "Verif.Poll.C70_round_violation",
    "Verif.Poll.C70_timeout_violation"
   ],
   "note": "Proved for returns with fewer than 32 entries to report. Violations: 32-event limit (many), same descriptor twice fails (twice), regular files fail (file), waits although an entry is closed (closed), timeout rounding and overflow."
  },
  {
   "property": "C71",
   "status": "partial",
   "theorems": [
    "Verif.Fnmatch.C71_fnmatch_partial",
    "Verif.Fnmatch.C71_escape_violation",
    "Verif.Fnmatch.C71_period_violation",
    "Verif.Fnmatch.C71_component_violation",
    "Verif.Fnmatch.C71_slash_violation",
    "Verif.Fnmatch.C71_bracket_violation",
    "Verif.Fnmatch.C71_class_violation",
    "Verif.Fnmatch.C71_overread_violation"
   ],
   "note": "Patterns of literals, ?, * and bracket expressions without special characters, all flags (C71_fnmatch_partial; regex crate by contract). Disproved: escape flag inverted, leading * with FNM_PERIOD, *.c matching .c, [!a] matching a slash, ] first in brackets, character classes, read beyond the pattern for an unfinished escape."
  },
  {
   "property": "C72",
   "status": "proved",
   "theorems": [
    "Verif.Uio.C72_readv",
    "Verif.Uio.C72_writev",
    "Verif.Uio.C72_range"
   ],
   "note": "For all arrays of disjoint buffers; the kernel's read and write are a function. NULL arrays and a negative count are not modelled."
  },
  {
   "property": "C73",
   "status": "partial",
   "theorems": [
    "Verif.Dir.C73_dirent_partial",
    "Verif.Dir.C73_error_violation"
   ],
   "note": "Proved on both platforms for a directory that does not change and calls of getdents that do not fail (C73_dirent_partial). After a failed getdents the stream is broken for ever (C73_error_violation), so the last part of the property does not hold."
  },
  {
   "property": "C74",
   "status": "partial",
   "theorems": [
    "Verif.Signal.C74_sigaction",
    "Verif.Signal.C74_discard",
    "Verif.Signal.C74_inherit",
    "Verif.Signal.C74_siginterrupt_violation"
   ],
   "note": "Model: SigactionModel of the packed action words (Signal/ActionModel). C74_sigaction (all call sequences against a map of dispositions), C74_discard, C74_inherit. Partial because siginterrupt with flag != 0 panics (C74_siginterrupt_violation). Handler addresses below 2^57."
  },
  {
   "property": "C75",
   "status": "partial",
   "theorems": [
    "Verif.Signal.C75_handler_mask",
    "Verif.Signal.C75_handler_called",
    "Verif.Signal.C75_resethand_violation",
    "Verif.Signal.C75_ignore_violation",
    "Verif.Signal.C75_context_violation",
    "Verif.Signal.C75_internal_violation"
   ],
   "note": "C75_handler_mask: mask inside and after the handler and pending signals, under arbitrary interference; C75_handler_called: SA_SIGINFO, SA_RESETHAND without concurrent sigaction. Violated: SA_RESETHAND and SIG_IGN/SIG_DFL races (C75_resethand_violation, C75_ignore_violation), uc_sigmask is the complement (C75_context_violation), sa_mask can block the cancellation signal (C75_internal_violation). The assembly trampoline is not modelled."
  },
  {
   "property": "C76",
   "status": "proved",
   "theorems": [
    "Verif.Signal.C76_sigaltstack"
   ],
   "note": "C76_sigaltstack: every call sequence against the abstract stack (Option (base, size)); hypothesis: base + size within the address space."
  },
  {
   "property": "C77",
   "status": "partial",
   "theorems": [
    "Verif.Signal.C77_taken",
    "Verif.Signal.C77_process",
    "Verif.Signal.C77_error",
    "Verif.Signal.C77_immediate",
    "Verif.Signal.C77_sigwait_violation"
   ],
   "note": "C77_taken, C77_process, C77_error, C77_immediate for arbitrary interference (process-pending claims with the process word otherwise quiet). Violated: sigwait returns -1 without a signal when another thread takes the signal that woke it (C77_sigwait_violation)."
  },
  {
   "property": "C78",
   "status": "partial",
   "theorems": [
    "Verif.Scanf.C78_match_partial",
    "Verif.Scanf.C78_negative_violation",
    "Verif.Scanf.C78_no_number_violation",
    "Verif.Scanf.C78_end_violation",
    "Verif.Scanf.C78_width_violation",
    "Verif.Scanf.C78_string_width_violation",
    "Verif.Scanf.C78_count_violation",
    "Verif.Scanf.C78_hex_zero_violation",
    "Verif.Scanf.C78_hex_prefix_violation",
    "Verif.Scanf.C78_utf8_violation",
    "Verif.Scanf.C78_tab_violation",
    "Verif.Scanf.C78_count_size_violation",
    "Verif.Scanf.C78_set_violation",
    "Verif.Scanf.C78_hang_violation",
    "Verif.Scanf.C78_exponent_violation",
    "Verif.Scanf.C78_types"
   ],
   "note": "C78_types: safety for all inputs. C78_match_partial: values for inputs that fit; the witnesses C78_*_violation show what the code gets wrong (negative numbers, widths, end of input, 0x, %n, sets without match, unfinished sets)."
  },
  {
   "property": "C79",
   "status": "partial",
   "theorems": [
    "Verif.Ldso.C79_weak_violation",
    "Verif.Ldso.C79_deps_violation",
    "Verif.Ldso.C79_null_violation",
    "Verif.Ldso.C79_failed_violation",
    "Verif.Ldso.C79_global_first_violation",
    "Verif.Ldso.C79_global",
    "Verif.Ldso.C79_default_partial",
    "Verif.Ldso.C79_handle_partial",
    "Verif.Ldso.C79_reference_partial"
   ],
   "note": "Proved: the global scope consists of the objects loaded with the program, each once, the program first (C79_global); RTLD_DEFAULT, handles and references find the first global definition, else the only weak one (C79_default_partial, C79_handle_partial, C79_reference_partial), for programs that open with RTLD_LOCAL. The code violates the rest: of several weak definitions the last wins, a handle does not see indirect dependencies, the handle of dlopen(NULL) does not see the program's libraries, a failed RTLD_GLOBAL dlopen makes the next lookup panic, a weak definition of the global scope beats a library's own global one."
  },
  {
   "property": "C80",
   "status": "partial",
   "theorems": [
    "Verif.Ldso.C80_program_partial",
    "Verif.Ldso.C80_dlopen_partial",
    "Verif.Ldso.C80_success",
    "Verif.Ldso.C80_cycle_violation",
    "Verif.Ldso.C80_path_violation",
    "Verif.Ldso.C80_libc_violation"
   ],
   "note": "Proved for dependency graphs without cycles whose files are named by their soname. The code violates the rest: cycles overflow the stack, a library opened by two paths is loaded twice, libc.so and libc.so.6 are initialised separately."
  },
  {
   "property": "C81",
   "status": "partial",
   "theorems": [
    "Verif.Ldso.C81_global_violation",
    "Verif.Ldso.C81_leak_violation",
    "Verif.Ldso.C81_noload_violation",
    "Verif.Ldso.C81_in_use_partial",
    "Verif.Ldso.C81_handle",
    "Verif.Ldso.C81_program",
    "Verif.Ldso.C81_no_panic",
    "Verif.Ldso.C81_unloaded"
   ],
   "note": "Proved for programs that open with RTLD_LOCAL; handles, the program's own objects and absence of panics without that restriction. The code violates the rest: RTLD_GLOBAL libraries shared by two others are unloaded while in use, RTLD_LOCAL ones leak, RTLD_NOW|RTLD_NOLOAD panics."
  },
  {
   "property": "C82",
   "status": "partial",
   "theorems": [
    "Verif.Ldso.C82_exit_violation",
    "Verif.Ldso.C82_close_violation",
    "Verif.Ldso.C82_fini_once"
   ],
   "note": "Once and never before the constructors: proved. The order is wrong in the code, at exit and in dlclose (violation theorems)."
  },
  {
   "property": "C83",
   "status": "partial",
   "theorems": [
    "Verif.Ldso.C83_static",
    "Verif.Ldso.C83_new_thread",
    "Verif.Ldso.C83_start",
    "Verif.Ldso.C83_stable",
    "Verif.Ldso.C83_main_partial",
    "Verif.Ldso.C83_main_apart_partial",
    "Verif.Ldso.C83_overlap_violation",
    "Verif.Ldso.C83_create_violation",
    "Verif.Ldso.C83_existing_violation",
    "Verif.Ldso.C83_threads_violation",
    "Verif.Ldso.C83_failed_violation",
    "Verif.Ldso.C83_align_violation"
   ],
   "note": "Blocks of the modules present at start are right in all threads (C83_static, C83_new_thread, C83_start), addresses never move (C83_stable); modules opened later only for the first thread when no other thread opens libraries and no dlopen fails (C83_main_partial, C83_main_apart_partial). Violations with witnesses: a thread created after two TLS libraries were opened has both at one place, or creation panics; existing threads get NULL; two threads opening libraries mix up modules; a failed dlopen shifts module ids; p_align is ignored."
  },
  {
   "property": "C84",
   "status": "proved",
   "theorems": [
    "Verif.Ldso.C84_relr",
    "Verif.Ldso.C84_ok"
   ],
   "note": "Declarative description of the table (Names); each named word relocated once, nothing else changed, success when mapped."
  },
  {
   "property": "C85",
   "status": "partial",
   "theorems": [
    "Verif.Ldso.C85_mapped_partial",
    "Verif.Ldso.C85_align_violation",
    "Verif.Ldso.C85_base_violation",
    "Verif.Ldso.C85_wx",
    "Verif.Ldso.C85_prot_partial",
    "Verif.Ldso.C85_shared_page_violation"
   ],
   "note": "C85_wx holds always. C85_mapped_partial for non-zero alignments and position independent objects whose lowest segment is at 0; C85_prot_partial for pages with one segment. Violations: alignment 0 panics, other lowest address fails, a shared page has the last protection."
  },
  {
   "property": "C86",
   "status": "partial",
   "theorems": [
    "Verif.Ldso.C86_search_partial",
    "Verif.Ldso.C86_path_partial",
    "Verif.Ldso.C86_sound",
    "Verif.Ldso.C86_none",
    "Verif.Ldso.C86_cwd_violation",
    "Verif.Ldso.C86_order_violation",
    "Verif.Ldso.C86_slash_violation"
   ],
   "note": "C86_sound and C86_none hold always; the order (C86_search_partial, C86_path_partial) only when the current directory has no such file and not both paths are given. Violations: current directory first, run path before LD_LIBRARY_PATH, missing path looked for below the directories."
  },
  {
   "property": "C87",
   "status": "partial",
   "theorems": [
    "Verif.Users.C87_comment_violation",
    "Verif.Users.C87_big_violation",
    "Verif.Users.C87_getpwent_violation",
    "Verif.Users.C87_range_violation",
    "Verif.Users.C87_earlier_violation",
    "Verif.Users.C87_stale_violation",
    "Verif.Users.C87_overrun_violation",
    "Verif.Users.C87_getpwnam_partial",
    "Verif.Users.C87_getpwuid_partial",
    "Verif.Users.C87_getpwnam_r_partial",
    "Verif.Users.C87_getpwuid_r_partial",
    "Verif.Users.C87_bounds",
    "Verif.Users.C87_getpwent_partial"
   ],
   "note": "Right when all lines up to the wanted one are well-formed (ids below 2^31, since uid_t is int). Violations proved: a comment or malformed line, or an id above 2^31, ends the search and ends getpwent early; the _r functions return -1 instead of ERANGE; they fail if an earlier user does not fit the buffer; missing fields are taken from stale bytes of the caller's buffer; a line one field short gives a pw_shell pointing behind the allocation."
  },
  {
   "property": "C88",
   "status": "partial",
   "theorems": [
    "Verif.Users.C88_getgrnam_violation",
    "Verif.Users.C88_order_violation",
    "Verif.Users.C88_getgrnam_r_violation",
    "Verif.Users.C88_range_violation",
    "Verif.Users.C88_comment_violation",
    "Verif.Users.C88_align_violation",
    "Verif.Users.C88_getgrouplist_violation",
    "Verif.Users.C88_panic_violation",
    "Verif.Users.C88_noid_violation",
    "Verif.Users.C88_many_violation",
    "Verif.Users.C88_getgrgid_partial",
    "Verif.Users.C88_getgrnam_partial",
    "Verif.Users.C88_getgrgid_r_partial",
    "Verif.Users.C88_getgrnam_r_partial",
    "Verif.Users.C88_getgrent_partial",
    "Verif.Users.C88_getgrouplist_partial"
   ],
   "note": "Lookup by id right for well-formed lines with at most 4096 members; lookup by name only if no earlier name is a prefix of the other. Violations proved: getgrnam matches prefixes in both directions; getgrnam_r returns ENOENT and leaves *result unset if absent, EINVAL for a small buffer; malformed lines end the search; pointers after the 4096th member are not adjusted; gr_mem unaligned; getgrouplist omits the given group and panics on malformed lines."
  },
  {
   "property": "C89",
   "status": "partial",
   "theorems": [
    "Verif.Users.C89_getspnam_partial",
    "Verif.Users.C89_getspnam_r_partial",
    "Verif.Users.C89_getspent_partial",
    "Verif.Users.C89_prefix_violation",
    "Verif.Users.C89_order_violation",
    "Verif.Users.C89_malformed_violation"
   ],
   "note": "Right if no earlier line begins with the name. Violations proved: prefix match (getspnam(\"b\") finds bob, getspnam(\"\") the first entry, bob may get bobby's password); a malformed line ends getspnam_r and getspent."
  },
  {
   "property": "C90",
   "status": "partial",
   "theorems": [
    "Verif.Net.C90_bounds",
    "Verif.Net.C90_accept_partial",
    "Verif.Net.C90_refuse_partial",
    "Verif.Net.C90_accept_violation",
    "Verif.Net.C90_plus_violation",
    "Verif.Net.C90_dots_violation",
    "Verif.Net.C90_colon_violation",
    "Verif.Net.C90_family"
   ],
   "note": "Bounds and the family check are proved in full. Acceptance excludes addresses with :: for a single group at an end (refused by the code), refusal excludes texts with +, with dots in front of a colon, and with a single colon at an end (accepted by the code); all four are shown by witnesses. Zeros in front of the octets of the dotted quad are not allowed by the specification used."
  },
  {
   "property": "C91",
   "status": "partial",
   "theorems": [
    "Verif.Time.C91_localtime_partial",
    "Verif.Time.C91_gmtime_partial",
    "Verif.Time.C91_timegm_partial",
    "Verif.Time.C91_roundtrip_partial",
    "Verif.Time.C91_mktime_partial",
    "Verif.Time.C91_mktime_roundtrip_partial",
    "Verif.Time.C91_timelocal_partial",
    "Verif.Time.C91_gmtime_violation",
    "Verif.Time.C91_normalise_violation",
    "Verif.Time.C91_gap_violation",
    "Verif.Time.C91_range_violation",
    "Verif.Time.C91_isdst_violation",
    "Verif.Time.C91_zone_violation",
    "Verif.Time.C91_difftime_partial",
    "Verif.Time.C91_difftime_violation"
   ],
   "note": "Proved for times within 250000 years of the Epoch: fields, day of the week and of the year and the value by the POSIX formula for localtime in any zone and for gmtime with TZ being UTC; timegm and mktime for fields in range; both round trips (mktime: in zones whose daylight saving time is a whole number of hours). Violations found: gmtime uses the time zone of TZ; mktime and timegm refuse fields out of range instead of normalising them and refuse local times in the gap; daylight saving time of less than an hour is reported as 0 and mktime then returns another moment; for times beyond chrono's range the result pointer is returned with nothing written; tm_zone is the zone's name, daylight is always 0, timezone includes daylight saving time; difftime wraps around."
  },
  {
   "property": "C92",
   "status": "proved",
   "theorems": [
    "Verif.Time.C92_text",
    "Verif.Time.C92_bounds"
   ],
   "note": "Proved in full: exact text for normal fields and years 1000 to 9999, bound of 26 bytes for every structure the function does not abort on."
  },
  {
   "property": "C93",
   "status": "partial",
   "theorems": [
    "Verif.Time.C93_text_partial",
    "Verif.Time.C93_bounds",
    "Verif.Time.C93_century_violation",
    "Verif.Time.C93_week_violation",
    "Verif.Time.C93_unknown_violation",
    "Verif.Time.C93_year_violation",
    "Verif.Time.C93_empty_violation",
    "Verif.Time.C93_const_violation"
   ],
   "note": "Bounds and return value proved for every format and structure (with tm_zone a string); text proved for all formats over the conversions % n t a A b h B y Y m d e j H k I l M S p P u w z Z D x F R T X r (also with E and O), %C in the first year of a century, %U and %W from week 10, for years 1900 to 9999. Violations found: %C of 2024 is 21; %U, %W have no leading zero; %V of 1 January 2024 is 52; %c, %G, %g are unknown and make the call return 0; %y of 1850 is -50; nothing is written for an empty text in a buffer of one byte or an empty format; %s changes the caller's structure."
  },
  {
   "property": "C94",
   "status": "partial",
   "theorems": [
    "Verif.Time.Tz.C94_posix_partial",
    "Verif.Time.Tz.C94_bounded",
    "Verif.Time.Tz.C94_zone_partial",
    "Verif.Time.Tz.C94_default_partial",
    "Verif.Time.Tz.C94_sign_violation",
    "Verif.Time.Tz.C94_day_violation",
    "Verif.Time.Tz.C94_quoted_violation",
    "Verif.Time.Tz.C94_summer_violation",
    "Verif.Time.Tz.C94_link_violation"
   ],
   "note": "Proved for the values of TZ that POSIX defines, except that offsets between -1:00 and 0:00 lose their sign, offsets beyond 24:00 are cut, and names in angle brackets and a leading colon are not understood (violations). For names of the database (a parameter of the model) only zones without daylight saving time are right: otherwise daylight, standard name and offset depend on the time of the call, and in the hour skipped in spring tzname is null (violation). A link of 100 bytes or more is read beyond the buffer (violation)."
  },
  {
   "property": "C95",
   "status": "partial",
   "theorems": [
    "Verif.Time.Strptime.C95_sound",
    "Verif.Time.Strptime.C95_reads_partial",
    "Verif.Time.Strptime.C95_space_violation",
    "Verif.Time.Strptime.C95_name_violation",
    "Verif.Time.Strptime.C95_order_violation",
    "Verif.Time.Strptime.C95_unknown_violation",
    "Verif.Time.Strptime.C95_literal_violation",
    "Verif.Time.Strptime.C95_utf8_violation",
    "Verif.Time.Strptime.C95_failure_violation"
   ],
   "note": "Soundness holds in full for formats in ASCII. That texts are accepted is proved for the texts strptime can recognize (Ends); violations: white space in the format has to match exactly, %a does not take full names, %p before %I is lost, many conversions are unknown, formats beyond ASCII can crash, input has to be UTF-8 to its end, fields are changed on failure."
  },
  {
   "property": "C96",
   "status": "partial",
   "theorems": [
    "Verif.Time.Strptime.C96_roundtrip_partial",
    "Verif.Time.Strptime.C96_blank_violation",
    "Verif.Time.Strptime.C96_adjacent_violation"
   ],
   "note": "Proved for the conversions Y m d H M S j a A b B h F T with separators between them. Violations: %e is not read back, nor are conversions strptime does not know; without separators %Y takes all digits."
  },
  {
   "property": "C97",
   "status": "partial",
   "theorems": [
    "Verif.Glob.C97_glob_partial",
    "Verif.Glob.C97_hidden_violation",
    "Verif.Glob.C97_slash_violation",
    "Verif.Glob.C97_dots_violation",
    "Verif.Glob.C97_err_violation",
    "Verif.Glob.C97_empty_violation",
    "Verif.Glob.C97_append_violation",
    "Verif.Glob.C97_free_violation",
    "Verif.Glob.C97_globfree_partial"
   ],
   "note": "Proved for patterns of nonempty sections without '.', '..' and trailing slash, for an errfunc that returns 0 and without GLOB_ERR and GLOB_PERIOD, if no section begins with a wildcard or there are no hidden files. Violations: wildcards match hidden files (GLOB_PERIOD is handed on as FNM_PERIOD, the wrong way round), 'b/' finds files, '.', '/' and 'a/../b' find nothing, GLOB_ERR aborts on dangling links and on missing directories, GLOB_NOCHECK ignores the empty pattern, GLOB_APPEND after an empty pattern reads a null pointer, globfree leaves gl_offs strings."
  },
  {
   "property": "C98",
   "status": "partial",
   "theorems": [
    "Verif.Handlers.C98_finalize_partial",
    "Verif.Handlers.C98_once_partial",
    "Verif.Handlers.C98_reentry_violation",
    "Verif.Handlers.C98_thread_partial",
    "Verif.Handlers.C98_thread_violation"
   ],
   "note": "Partial: proved for functions that do not register others; violations: such a function deadlocks in __cxa_finalize, and panics in __cxa_thread_finalize."
  },
  {
   "property": "C99",
   "status": "proved",
   "theorems": [
    "Verif.Handlers.C99_cleanup"
   ],
   "note": "Proved, for paired calls."
  },
  {
   "property": "C100",
   "status": "partial",
   "theorems": [
    "Verif.Handlers.C100_fork_partial",
    "Verif.Handlers.C100_order_violation",
    "Verif.Handlers.C100_thread_violation"
   ],
   "note": "Partial: parent and child handlers of the forking thread in order; violations: prepare handlers run in order of registration, and handlers of other threads are not run."
  },
  {
   "property": "C101",
   "status": "partial",
   "theorems": [
    "Verif.Attr.C101_thread_partial",
    "Verif.Attr.C101_stacksize",
    "Verif.Attr.C101_guardsize_violation",
    "Verif.Attr.C101_mutex_partial",
    "Verif.Attr.C101_mutex_init",
    "Verif.Attr.C101_mutex_violation",
    "Verif.Attr.C101_cond_violation",
    "Verif.Attr.C101_rwlock_violation",
    "Verif.Attr.C101_barrier_partial",
    "Verif.Attr.C101_spawn",
    "Verif.Attr.C101_flags_violation"
   ],
   "note": "Partial: threads (guard size below 2^31), mutexes (defined values), barriers, spawn attributes fully; violations: guard size is truncated to int, undefined mutex types are accepted, the setters of condition variable and read-write lock attributes have no effect, the flags of posix_spawn are not distinct bits."
  },
  {
   "property": "C102",
   "status": "partial",
   "theorems": [
    "Verif.Exec.C102_execvp_partial",
    "Verif.Exec.C102_slash",
    "Verif.Exec.C102_unset",
    "Verif.Exec.C102_empty_violation",
    "Verif.Exec.C102_spawnp_partial",
    "Verif.Exec.C102_spawnp_violation"
   ],
   "note": "Partial: all values of PATH without empty elements; violations: an empty element means the root directory, posix_spawnp stops at a file that exists but cannot be executed."
  },
  {
   "property": "C103",
   "status": "proved",
   "theorems": [
    "Verif.Exec.C103_args"
   ],
   "note": "Proved, for argument lists ended by a null pointer."
  },
  {
   "property": "C104",
   "status": "partial",
   "theorems": [
    "Verif.Exec.C104_spawn_partial",
    "Verif.Exec.C104_add",
    "Verif.Exec.C104_noargs",
    "Verif.Exec.C104_cloexec_violation",
    "Verif.Exec.C104_cwd_violation",
    "Verif.Exec.C104_argv_violation",
    "Verif.Exec.C104_attr_violation",
    "Verif.Exec.C104_setuid_violation"
   ],
   "note": "Partial, for Redox (Linux has no posix_spawn): actions with unchanged strings, absolute directories, fchdir to descriptors of the parent, targets not FD_CLOEXEC in the parent; one of RESETIDS, SETPGROUP (positive), SETSIGMASK. Violations: duplicated descriptors closed by the parent's flags, O_CLOEXEC ignored, fchdir on the parent's descriptor, relative chdir, strings read late, argv[0] replaced, process group 0, default signals, scheduling, set-user-ID without attributes."
  },
  {
   "property": "C105",
   "status": "proved",
   "theorems": [
    "Verif.Exec.C105_exec_start",
    "Verif.Exec.C105_exec_too_many"
   ],
   "note": "Stack layout of fexec_impl and the start code of the new program, for 64-bit words and a statically linked program. The allocator and the placement of the pages are parameters. Descriptor moves to the upper table, thread-local storage and init arrays are not modelled."
  },
  {
   "property": "C106",
   "status": "partial",
   "theorems": [
    "Verif.Exec.C106_interpreter_partial",
    "Verif.Exec.C106_no_script",
    "Verif.Exec.C106_execve_script_partial",
    "Verif.Exec.C106_execve_program",
    "Verif.Exec.C106_execve_dynamic",
    "Verif.Exec.C106_execute_permission",
    "Verif.Exec.C106_runs_program",
    "Verif.Exec.C106_noexec",
    "Verif.Exec.C106_no_newline_violation",
    "Verif.Exec.C106_lost_argument_violation",
    "Verif.Exec.C106_tab_violation",
    "Verif.Exec.C106_empty_line_violation",
    "Verif.Exec.C106_long_line_violation",
    "Verif.Exec.C106_short_read_violation",
    "Verif.Exec.C106_interpreter_permission_violation",
    "Verif.Exec.C106_errors_violation"
   ],
   "note": "Proved for lines which end with a newline, have a space (not a tab) after the interpreter, and are at most 2048 bytes. The code refuses a script whose only line has no newline, loses its argument, does not take a tab as separator, takes the next line when the first is empty, counts the interpreter twice against the limit, does not check the permission of the interpreter, uses the real instead of the effective ids, and reports EPERM and ENOENT for EACCES (violation theorems)."
  },
  {
   "property": "C107",
   "status": "proved",
   "theorems": [
    "Verif.Fd.C107_initial",
    "Verif.Fd.C107_operation",
    "Verif.Fd.C107_iter",
    "Verif.Fd.C107_count"
   ],
   "note": "Complete for the two tables, their counters, the free list and the iterator; the kernel's answer to a request for a larger table is arbitrary. The flag word is reduced to close-on-exec; numbers are not cut to 32 bits."
  },
  {
   "property": "C108",
   "status": "partial",
   "theorems": [
    "Verif.Fd.C108_open",
    "Verif.Fd.C108_dup",
    "Verif.Fd.C108_close",
    "Verif.Fd.C108_flags",
    "Verif.Fd.C108_dup2_partial",
    "Verif.Fd.C108_dupfd_partial",
    "Verif.Fd.C108_exec",
    "Verif.Fd.C108_threads",
    "Verif.Fd.C108_dup2_error_violation",
    "Verif.Fd.C108_dup2_same_violation",
    "Verif.Fd.C108_dupfd_violation",
    "Verif.Fd.C108_stray_close_violation"
   ],
   "note": "open, dup, close, F_GETFD, F_SETFD, exec and the threads part in full, relative to a kernel taken as a map from numbers to files. Violations: a dup2 that fails (bad source) drops the open target from the table, so the next open replaces it; dup2(fd, fd) clears close-on-exec; F_DUPFD ignores its minimum; closing a number that is not open while another thread opens a file lets that number be given twice."
  },
  {
   "property": "C109",
   "status": "partial",
   "theorems": [
    "Verif.Cwd.C109_chdir",
    "Verif.Cwd.C109_invariant",
    "Verif.Cwd.C109_getcwd_partial",
    "Verif.Cwd.C109_getcwd_null_partial",
    "Verif.Cwd.C109_fchdir_partial",
    "Verif.Cwd.C109_getcwd_violation",
    "Verif.Cwd.C109_getcwd_null_violation",
    "Verif.Cwd.C109_fchdir_violation"
   ],
   "note": "getcwd: without a buffer of exactly the length of the name, for which there is no NUL (C109_getcwd_violation), and without names of PATH_MAX bytes for a null buffer (panic, C109_getcwd_null_violation); fchdir does not check that the file is a directory (C109_fchdir_violation). A buffer of size 0 gives ERANGE instead of EINVAL."
  },
  {
   "property": "C110",
   "status": "partial",
   "theorems": [
    "Verif.Cwd.C110_resolve",
    "Verif.Cwd.C110_open_partial",
    "Verif.Cwd.C110_open_relative_partial",
    "Verif.Cwd.C110_openat_partial",
    "Verif.Cwd.C110_open_violation"
   ],
   "note": "The first link, if relative, is looked up from the working directory or the directory descriptor instead of the directory of the link (C110_open_violation); the theorems for open and openat exclude that case. The kernel and the name functions of the crate redox-path, which is not in the repository, are parameters."
  },
  {
   "property": "C111",
   "status": "partial",
   "theorems": [
    "Verif.Ring.C111_pool",
    "Verif.Ring.C111_queue",
    "Verif.Ring.C111_sized_violation",
    "Verif.Ring.C111_free_sized_violation"
   ],
   "note": "Holds for buffers requested with redox_ring_alloc_buf and freed by offset. On a pool of equal buffers redox_ring_alloc_sized ignores the size (C111_sized_violation), and redox_ring_free_buf_sized always frees the first buffer of the pool (C111_free_sized_violation). The pool for buffers of any size is in a crate outside the repository."
  },
  {
   "property": "C112",
   "status": "partial",
   "theorems": [
    "Verif.Timer.C112_timer_partial",
    "Verif.Timer.C112_rearm_violation",
    "Verif.Timer.C112_disarm_violation",
    "Verif.Timer.C112_gettime_violation",
    "Verif.Timer.C112_race_violation",
    "Verif.Timer.C112_alarm_violation",
    "Verif.Timer.C112_drift_violation",
    "Verif.Timer.C112_create_violation",
    "Verif.Timer.C112_alarm_partial"
   ],
   "note": "Proved for programs that arm a timer only when it is off and do not disarm it. Otherwise: an earlier wake-up notifies in place of the later one (C112_rearm_violation), a periodic timer goes on after disarming (C112_disarm_violation), a notification after disarming before the thread has started (C112_race_violation), time left after disarming (C112_gettime_violation), alarm(10); alarm(0); alarm(20) never rings (C112_alarm_violation). Periods drift (C112_drift_violation), real-time signals but the first are refused (C112_create_violation)."
  },
  {
   "property": "C113",
   "status": "partial",
   "theorems": [
    "Verif.Socket.C113_send_partial",
    "Verif.Socket.C113_recv_partial",
    "Verif.Socket.C113_leak_violation",
    "Verif.Socket.C113_ctrunc_violation",
    "Verif.Socket.C113_dest_violation",
    "Verif.Socket.C113_empty_violation",
    "Verif.Socket.C113_error_violation",
    "Verif.Socket.C113_overrun_violation",
    "Verif.Socket.C113_name_violation"
   ],
   "note": "sendmsg and recvmsg are exact for inet names, any buffers and any well-formed control messages. Violations: msg_name of sendmsg is ignored; without buffers the payload length is missing from the stream; a failing sendmsg has already given descriptors away; cmsg_len is not checked against the control buffer; descriptors of a control message which does not fit are taken but neither delivered nor closed; no MSG_CTRUNC without a control buffer; a name while msg_namelen is 0 is taken for payload."
  },
  {
   "property": "C114",
   "status": "partial",
   "theorems": [
    "Verif.Socket.C114_inet",
    "Verif.Socket.C114_family",
    "Verif.Socket.C114_name",
    "Verif.Socket.C114_roundtrip",
    "Verif.Socket.C114_accept",
    "Verif.Socket.C114_unix_partial",
    "Verif.Socket.C114_unix_violation",
    "Verif.Socket.C114_bind_unix_partial",
    "Verif.Socket.C114_connect_unix_partial",
    "Verif.Socket.C114_connect_unix_violation",
    "Verif.Socket.C114_bind_unix_violation"
   ],
   "note": "Exact for AF_INET, including the round trip; for Unix sockets with room for the whole name. Violations: the caller's length is ignored for Unix names (overflow of the buffer); connect ignores address_len and reads sun_path as a C string; bind with address_len < 2 wraps around."
  },
  {
   "property": "C115",
   "status": "partial",
   "theorems": [
    "Verif.Threads.C115_create",
    "Verif.Threads.C115_no_fault",
    "Verif.Threads.C115_error_partial",
    "Verif.Threads.C115_leak_violation",
    "Verif.Threads.C115_given_stack_partial",
    "Verif.Threads.C115_overrun_violation",
    "Verif.Threads.C115_stack_lost_violation",
    "Verif.Threads.C115_stack_unmapped_violation",
    "Verif.Threads.C115_guard_violation",
    "Verif.Threads.C115_end_partial",
    "Verif.Threads.C115_tls_leak_violation"
   ],
   "note": "Exact for stacks allocated by the library (contents of the new stack, disjointness, no fault) and for errors before the thread is started. Violations: the control block leaks if the kernel does not start the thread; thread-local storage and the page below it are never unmapped; the guard size is ignored; a caller's stack is rounded up (written above its end), unmapped on failure, and unmapped when the thread ends."
  },
  {
   "property": "C116",
   "status": "partial",
   "theorems": [
    "Verif.Threads.C116_recursive",
    "Verif.Threads.C116_plain",
    "Verif.Threads.C116_trylock_partial",
    "Verif.Threads.C116_busy_violation",
    "Verif.Threads.C116_lock",
    "Verif.Threads.C116_timedlock_partial",
    "Verif.Threads.C116_timeout_violation",
    "Verif.Threads.C116_cnd_timeout_violation",
    "Verif.Threads.C116_cnd_partial",
    "Verif.Threads.C116_unlock",
    "Verif.Threads.C116_create_partial",
    "Verif.Threads.C116_nomem_violation",
    "Verif.Threads.C116_join_partial",
    "Verif.Threads.C116_join_violation",
    "Verif.Threads.C116_sleep_violation"
   ],
   "note": "Recursion, plain mutexes, ownership after success, unlock and thrd_create success are exact. Violations: thrd_busy and thrd_timedout are never reported (errno is looked at, which pthread functions do not set), errno is set to 0, missing memory for the control block is thrd_error, thrd_join stores eight bytes, thrd_sleep panics."
  },
  {
   "property": "C117",
   "status": "partial",
   "theorems": [
    "Verif.Socket.C117_socket",
    "Verif.Socket.C117_unsupported",
    "Verif.Socket.C117_socketpair_partial",
    "Verif.Socket.C117_cloexec_violation",
    "Verif.Socket.C117_protocol_violation",
    "Verif.Socket.C117_sigpipe",
    "Verif.Socket.C117_send",
    "Verif.Socket.C117_sendto_partial",
    "Verif.Socket.C117_dest_violation",
    "Verif.Socket.C117_unix_violation",
    "Verif.Socket.C117_recv",
    "Verif.Socket.C117_recvfrom_partial",
    "Verif.Socket.C117_getsockopt",
    "Verif.Socket.C117_refused",
    "Verif.Socket.C117_timeout",
    "Verif.Socket.C117_scheme",
    "Verif.Socket.C117_error_violation",
    "Verif.Socket.C117_level_violation",
    "Verif.Socket.C117_listen_violation",
    "Verif.Socket.C117_usec_violation",
    "Verif.Socket.C117_noaddress_violation"
   ],
   "note": "Proved: socket (scheme, flags, errors), refusals, send/recv without flags, SIGPIPE exactly and descriptors unchanged for every sendto, domain/type/time limits, other options and shutdown as the scheme says. Partial: socketpair (all but SOCK_CLOEXEC), sendto (without flags, internet addresses), recvfrom (length of the address cut off). Violations: SOCK_CLOEXEC lost by socketpair, protocol ignored, destination ignored with flags, Unix destinations refused, SO_ERROR always 0, unknown levels and listen always succeed, microseconds out of range accepted, address taken for the datagram if there is no room for it."
  },
  {
   "property": "C118",
   "status": "partial",
   "theorems": [
    "Verif.Ids.C118_setresuid_exact",
    "Verif.Ids.C118_setresgid_exact",
    "Verif.Ids.C118_reports_partial",
    "Verif.Ids.C118_spawn_violation",
    "Verif.Ids.C118_spawn_partial",
    "Verif.Ids.C118_setuid_saved_violation",
    "Verif.Ids.C118_setuid_real_violation",
    "Verif.Ids.C118_setreuid_saved_violation",
    "Verif.Ids.C118_effective_partial"
   ],
   "note": "Proved for every process manager: what setresuid/setresgid ask and change, and that the reported ids are the real ones after any calls that set ids. Violations: posix_spawn with attributes puts the child's effective ids into the parent's copy; setuid keeps the saved id of a privileged process, which can then regain its privileges, and changes the real id of another one; setreuid never sets the saved id."
  },
  {
   "property": "C119",
   "status": "proved",
   "theorems": [
    "Verif.Ids.C119_getpriority_exact",
    "Verif.Ids.C119_setpriority_exact",
    "Verif.Ids.C119_nice_exact"
   ],
   "note": "Proved for every kernel that keeps priorities from 0 to 39."
  },
  {
   "property": "C120",
   "status": "partial",
   "theorems": [
    "Verif.Reclock.C120_setlk_partial",
    "Verif.Reclock.C120_lockf_violation",
    "Verif.Reclock.C120_lockf_block_violation",
    "Verif.Reclock.C120_getlk_violation",
    "Verif.Reclock.C120_getlk_partial",
    "Verif.Reclock.C120_overflow_violation",
    "Verif.Reclock.C120_lockf_partial",
    "Verif.Reclock.C120_lockf_requests_partial"
   ],
   "note": "Proved for SEEK_SET and any file system: exactly the bytes asked for are locked or unlocked. Violations: SEEK_CUR and SEEK_END lock the whole file, so lockf does; F_LOCK requests no lock; F_GETLK reports the start of the request instead of that of the lock (negative for OFD locks); overflowing sections panic or lock something else."
  },
  {
   "property": "C121",
   "status": "partial",
   "theorems": [
    "Verif.Wait.C121_request_exact",
    "Verif.Wait.C121_waitpid_partial",
    "Verif.Wait.C121_nohang_violation",
    "Verif.Wait.C121_macros_exclusive",
    "Verif.Wait.C121_macros_exact",
    "Verif.Wait.C121_exit_exact"
   ],
   "note": "Proved: requests, results for answers without a stop before 0 or an error, the macros. Violation: after a child has been stopped waitpid with WNOHANG (or when there are no children) never returns."
  },
  {
   "property": "C122",
   "status": "partial",
   "theorems": [
    "Verif.Wait.C122_system_partial",
    "Verif.Wait.C122_system_violation",
    "Verif.Wait.C122_popen_mode",
    "Verif.Wait.C122_popen_partial",
    "Verif.Wait.C122_popen_fork_violation",
    "Verif.Wait.C122_popen_std_violation",
    "Verif.Wait.C122_popen_inherit_violation",
    "Verif.Wait.C122_popen_cloexec_partial"
   ],
   "note": "Proved: system with a shell that can be executed; popen with new descriptors from 2 on; streams with e are not inherited. Violations: buffered output written twice when the shell cannot be executed; both pipe ends leak if fork fails; with standard input or output closed the shell has none; later shells keep the pipes of earlier ones open."
  },
  {
   "property": "C123",
   "status": "partial",
   "theorems": [
    "Verif.Modes.C123_open_exact",
    "Verif.Modes.C123_umask_exact",
    "Verif.Modes.C123_mkdir_partial",
    "Verif.Modes.C123_mkdir_violation",
    "Verif.Modes.C123_mkfifo_partial",
    "Verif.Modes.C123_mkfifo_violation",
    "Verif.Modes.C123_symlink_partial",
    "Verif.Modes.C123_symlink_violation",
    "Verif.Modes.C123_utimensat_partial",
    "Verif.Modes.C123_utimensat_violation",
    "Verif.Modes.C123_access_partial",
    "Verif.Modes.C123_access_violation"
   ],
   "note": "mkdir ignores its mode; mkfifo and mknod succeed if there is a file; symlink overwrites the beginning of a link that is there; utimensat with AT_SYMLINK_NOFOLLOW follows links; a denial of access is EINVAL: violations proved. Everything else of the statement is proved."
  },
  {
   "property": "C124",
   "status": "partial",
   "theorems": [
    "Verif.Monetary.C124_strfmon_partial",
    "Verif.Monetary.C124_nearest",
    "Verif.Monetary.C124_bounds",
    "Verif.Monetary.C124_grouping_violation",
    "Verif.Monetary.C124_flags_violation",
    "Verif.Monetary.C124_left_violation",
    "Verif.Monetary.C124_utf8_violation"
   ],
   "note": "Proved for ASCII text, %%, %n and %i with ! and +, width and precision, and whole parts of up to three or a multiple of three digits; bounds for every format. Violations proved: groups are counted from the left, ( ^ - = are ignored or errors, the left precision fills with zeros or fails, other characters than ASCII are cut."
  },
  {
   "property": "C125",
   "status": "partial",
   "theorems": [
    "Verif.Lookup.C125_quad",
    "Verif.Lookup.C125_host_partial",
    "Verif.Lookup.C125_failures",
    "Verif.Lookup.C125_addr_partial",
    "Verif.Lookup.C125_labels_violation",
    "Verif.Lookup.C125_leak_violation",
    "Verif.Lookup.C125_id_violation",
    "Verif.Lookup.C125_lost_violation",
    "Verif.Lookup.C125_panic_violation",
    "Verif.Lookup.C125_pointer_violation"
   ],
   "note": "Proved: dotted addresses without traffic, one question with the right content to the right server, addresses and (pointer-free) names of the answer in order, failures as errors. Violated by the code: names of four labels become 0.0.0.0; the socket stays open; answers are not compared with the question; a lost datagram waits for ever; malformed names panic; names with pointers come out empty."
  },
  {
   "property": "C126",
   "status": "partial",
   "theorems": [
    "Verif.Lookup.C126_numeric",
    "Verif.Lookup.C126_nohost",
    "Verif.Lookup.C126_host_partial",
    "Verif.Lookup.C126_numerichost",
    "Verif.Lookup.C126_system",
    "Verif.Lookup.C126_free",
    "Verif.Lookup.C126_numeric_name",
    "Verif.Lookup.C126_roundtrip",
    "Verif.Lookup.C126_bounds",
    "Verif.Lookup.C126_name_partial",
    "Verif.Lookup.C126_namereqd",
    "Verif.Lookup.C126_service_violation",
    "Verif.Lookup.C126_family_violation",
    "Verif.Lookup.C126_empty_violation",
    "Verif.Lookup.C126_numerichost_violation",
    "Verif.Lookup.C126_canon_violation",
    "Verif.Lookup.C126_noname_violation",
    "Verif.Lookup.C126_service_name_violation",
    "Verif.Lookup.C126_fit_violation"
   ],
   "note": "Proved: numeric hosts and ports, no host, host names through the name server, AI_NUMERICHOST without traffic, EAI_SYSTEM with errno, freeaddrinfo frees all boxes, numeric names, round trip, buffers never overrun, NI_NAMEREQD. Violated by the code: unknown services give port 0; family and protocol in the hints are ignored; no addresses is success with an empty list; names of four labels pass AI_NUMERICHOST as 0.0.0.0; EAI_BADFLAGS loses a box; an address without name leaves the host buffer untouched with success; service names are always empty; a buffer that just fits the name is refused with EAI_MEMORY."
  },
  {
   "property": "C127",
   "status": "partial",
   "theorems": [
    "Verif.Strtod.C127_decimal_partial",
    "Verif.Strtod.C127_integer",
    "Verif.Strtod.C127_hex_partial",
    "Verif.Strtod.C127_fraction_partial",
    "Verif.Strtod.C127_inf_partial",
    "Verif.Strtod.C127_large_violation",
    "Verif.Strtod.C127_small_violation",
    "Verif.Strtod.C127_wrap_violation",
    "Verif.Strtod.C127_rounding_violation",
    "Verif.Strtod.C127_noconversion_violation",
    "Verif.Strtod.C127_hex_violation",
    "Verif.Strtod.C127_infinity_violation",
    "Verif.Strtod.C127_letter"
   ],
   "note": "Proved, on an exact model of IEEE arithmetic: integers of at most 53 (24) bits exactly, integers with exponents up to 22 (10) to the nearest number, hexadecimal numbers exactly, decimal fractions with an error bound, inf and nan, and the end pointer in all these cases. Violated by the code: exponents from 39 wrap, from 128 yield 0 (or infinity if negative, or not-a-number for 0e-128); fractions are not always the nearest number; the end pointer if there is no number, behind 0x without digits and within infinity; 0X is not recognised. errno is never set."
  },
  {
   "property": "C128",
   "status": "partial",
   "theorems": [
    "Verif.Float.C128_nonfinite_partial",
    "Verif.Float.C128_roundtrip",
    "Verif.Float.C128_sign_violation",
    "Verif.Float.C128_left_zero_violation",
    "Verif.Float.C128_negative_width_violation",
    "Verif.Float.C128_precision_violation",
    "Verif.Float.C128_infinity_violation",
    "Verif.Float.C128_fixed_partial"
   ],
   "note": "For every finite double the text is the correctly rounded decimal, ties to even, in the right field; inf and nan too; integers below 2^53 come back through strtod. Violated: flags + and space are ignored; - with 0 pads with zeros; 0 with a negative width from an argument writes 2^64 characters; a precision above 65535 panics; the sign of -inf is not counted in the width."
  },
  {
   "property": "C129",
   "status": "partial",
   "theorems": [
    "Verif.Float.C129_small_violation",
    "Verif.Float.C129_carry_violation",
    "Verif.Float.C129_left_zero_violation",
    "Verif.Float.C129_exponent_partial",
    "Verif.Float.C129_unit",
    "Verif.Float.C129_round"
   ],
   "note": "Shape, exponent and relative error for every finite double; exact for 0, for 1 <= x < 10 and for one digit times a power of ten up to 10^22. Violated: numbers of at most 2^-52 are printed with exponent 0; a mantissa rounded up is printed as 10.000000; - with 0 ignores the width."
  },
  {
   "property": "C130",
   "status": "partial",
   "theorems": [
    "Verif.Float.C130_small_violation",
    "Verif.Float.C130_carry_violation",
    "Verif.Float.C130_precision_violation",
    "Verif.Float.C130_general_partial",
    "Verif.Float.C130_zero",
    "Verif.Float.C130_threshold_partial"
   ],
   "note": "Proved for 0 and for numbers from 1 to 10^23 not just below a power of ten, with a precision of at least 1. Violated: numbers below 1 lose digits, 999999.5 is 1000000, precision 0 is not taken as 1."
  },
  {
   "property": "C131",
   "status": "partial",
   "theorems": [
    "Verif.Temp.C131_mkostemps",
    "Verif.Temp.C131_mkstemp",
    "Verif.Temp.C131_template",
    "Verif.Temp.C131_mkdtemp_partial",
    "Verif.Temp.C131_mktemp",
    "Verif.Temp.C131_tmpnam_partial",
    "Verif.Temp.C131_tmpnam_overflow_violation",
    "Verif.Temp.C131_tempnam",
    "Verif.Temp.C131_tmpfile",
    "Verif.Temp.C131_errno_violation",
    "Verif.Temp.C131_mkdtemp_private_violation",
    "Verif.Temp.C131_negative_suffix_violation"
   ],
   "note": "Violated by the code: errno is EEXIST whatever the cause; a negative suffix length is not refused and memory behind the string is overwritten; mkdtemp's directory has mode 0777 less the umask (mkdir ignores the mode); tmpnam writes 8 bytes into an array of L_tmpnam = 7. Everything else is proved."
  },
  {
   "property": "C132",
   "status": "partial",
   "theorems": [
    "Verif.Fopen.C132_invalid",
    "Verif.Fopen.C132_fopen",
    "Verif.Fopen.C132_fdopen",
    "Verif.Fopen.C132_freopen_partial",
    "Verif.Fopen.C132_append_violation",
    "Verif.Fopen.C132_cloexec_violation",
    "Verif.Fopen.C132_stale_violation",
    "Verif.Fopen.C132_null_violation",
    "Verif.Fopen.C132_null_mode_violation"
   ],
   "note": "fopen and fdopen: proved in full. freopen with a name: proved for modes without a and e. Violated by the code: freopen with a does not append (F_SETFL clears O_APPEND), with e the descriptor is not closed on exec, bytes read ahead from the old file are read from the new one, and freopen(NULL, ...) reports success without changing the mode (and accepts any mode string)."
  },
  {
   "property": "C133",
   "status": "proved",
   "theorems": [
    "Verif.Signal.C133_sysv",
    "Verif.Signal.C133_sigpause",
    "Verif.Signal.C133_unholdable"
   ],
   "note": "For all sequences of calls. What happens while sigpause waits (the kernel, handlers) is not modelled beyond that handlers leave the mask as they found it."
  },
  {
   "property": "C134",
   "status": "partial",
   "theorems": [
    "Verif.Send.C134_kill",
    "Verif.Send.C134_killpg",
    "Verif.Send.C134_raise",
    "Verif.Send.C134_pthread_kill",
    "Verif.Send.C134_sigqueue_partial",
    "Verif.Send.C134_sigqueue_value_violation",
    "Verif.Send.C134_sigqueue_signal_violation"
   ],
   "note": "sigqueue drops the value for the signals up to 32, and does not refuse numbers that are no signals: violations proved. killpg of a group below 1 is undefined in POSIX and left out."
  },
  {
   "property": "C135",
   "status": "partial",
   "theorems": [
    "Verif.Dir.C135_scandir_partial",
    "Verif.Dir.C135_alphasort",
    "Verif.Dir.C135_open",
    "Verif.Dir.C135_errno_violation",
    "Verif.Dir.C135_memory_violation",
    "Verif.Dir.C135_leak_violation",
    "Verif.Dir.C135_over_violation"
   ],
   "note": "Violations: the copy is always of 275 bytes, so that bytes behind the end of the stream's buffer are read (C135_over_violation); a filter which leaves a value in errno makes scandir fail (C135_errno_violation); without memory for a copy the list is cut off and success reported (C135_memory_violation); without memory for the vector the directory stays open (C135_leak_violation)."
  },
  {
   "property": "C136",
   "status": "proved",
   "theorems": [
    "Verif.Subopt.C136_option",
    "Verif.Subopt.C136_last",
    "Verif.Subopt.C136_getsubopt",
    "Verif.Subopt.C136_unique"
   ],
   "note": "One call with and without a comma (C136_option, C136_last), the whole loop (C136_getsubopt); the answer is unique (C136_unique)."
  },
  {
   "property": "C137",
   "status": "partial",
   "theorems": [
    "Verif.Syslog.C137_syslog_partial",
    "Verif.Syslog.C137_setlogmask",
    "Verif.Syslog.C137_lost_violation",
    "Verif.Syslog.C137_facility_violation",
    "Verif.Syslog.C137_default_facility_violation",
    "Verif.Syslog.C137_empty_violation"
   ],
   "note": "Proved for programs that set up logging first and then log without closing or reopening, facilities that are multiples of 32, and a log that accepts writes: exactly the selected records, in order, apart from NUL bytes, with at most 8192 bytes held back. Violated by the code: the buffer of records is never flushed and is thrown away by closelog, LOG_NDELAY and exit (C137_lost_violation); the mask is tested with the whole priority, so that messages of 15 of the 20 facilities are never logged (C137_facility_violation); the facility of openlog is dropped (C137_default_facility_violation); messages with an empty format are dropped (C137_empty_violation). setlogmask's value is proved for all sequences."
  },
  {
   "property": "C138",
   "status": "partial",
   "theorems": [
    "Verif.Fmtmsg.C138_fmtmsg_partial",
    "Verif.Fmtmsg.C138_severity_violation"
   ],
   "note": "Severities other than the five of the standard print \"(null)\" (C138_severity_violation)."
  },
  {
   "property": "C139",
   "status": "partial",
   "theorems": [
    "Verif.Shm.C139_segments_partial",
    "Verif.Shm.C139_create",
    "Verif.Shm.C139_key_violation",
    "Verif.Shm.C139_readonly_violation",
    "Verif.Shm.C139_leak_violation",
    "Verif.Shm.C139_errno_violation"
   ],
   "note": "The name is unlinked at once, so a key never finds its segment (C139_key_violation); SHM_RDONLY faults (C139_readonly_violation); a failing shmget leaks a descriptor and leaves the name (C139_leak_violation); a failing shmat does not set errno (C139_errno_violation)."
  },
  {
   "property": "C140",
   "status": "partial",
   "theorems": [
    "Verif.Wstdio.C140_fgetwc_partial",
    "Verif.Wstdio.C140_end",
    "Verif.Wstdio.C140_first_byte",
    "Verif.Wstdio.C140_illegal_violation",
    "Verif.Wstdio.C140_truncated_violation",
    "Verif.Wstdio.C140_wide_violation",
    "Verif.Wstdio.C140_orientation_violation",
    "Verif.Wstdio.C140_fgetws_partial",
    "Verif.Wstdio.C140_sticky_violation",
    "Verif.Wstdio.C140_empty_violation",
    "Verif.Wstdio.C140_fputwc_partial",
    "Verif.Wstdio.C140_error_violation",
    "Verif.Wstdio.C140_invalid_violation",
    "Verif.Wstdio.C140_fputws_partial",
    "Verif.Wstdio.C140_ungetwc",
    "Verif.Wstdio.C140_unget_eof_violation",
    "Verif.Wstdio.C140_new_stream"
   ],
   "note": "Proved for streams that are not wide-oriented and hold valid text. Violations: a wide-oriented stream can be neither read nor written (and fputwc claims success); the functions make a stream byte-oriented; bytes that do not continue a character give a null character with no indicator; a truncated character is just an end of file; fputwc never reports an error and writes four null bytes for an invalid value; fgetws writes into a buffer of no elements, and fails after success if the error indicator was set before; ungetwc leaves the end-of-file indicator set."
  },
  {
   "property": "C141",
   "status": "partial",
   "theorems": [
    "Verif.Hosts.C141_byname_file",
    "Verif.Hosts.C141_byname_dns_partial",
    "Verif.Hosts.C141_byname_unknown",
    "Verif.Hosts.C141_byname_error",
    "Verif.Hosts.C141_byaddr_file",
    "Verif.Hosts.C141_byaddr_dns_partial",
    "Verif.Hosts.C141_byaddr_length",
    "Verif.Hosts.C141_unterminated_violation",
    "Verif.Hosts.C141_numeric_violation",
    "Verif.Hosts.C141_labels_violation",
    "Verif.Hosts.C141_family_violation",
    "Verif.Hosts.C141_uninit_violation",
    "Verif.Hosts.C141_panic_violation"
   ],
   "note": "Proved: entries of the file by name, alias and address, queries to the name server, unknown hosts, failures. Violations: the name of a host found by query is not terminated and its alias list is freed memory; a numeric address without a name is not found; a name of four labels is taken for an address; the address family is not looked at; a line with an IPv6 address has an uninitialised address; a line of one word panics."
  },
  {
   "property": "C142",
   "status": "partial",
   "theorems": [
    "Verif.Pty.C142_ptsname",
    "Verif.Pty.C142_openpty_descriptors",
    "Verif.Pty.C142_openpty_partial",
    "Verif.Pty.C142_name_violation",
    "Verif.Pty.C142_forkpty_parent",
    "Verif.Pty.C142_forkpty_failed",
    "Verif.Pty.C142_forkpty_child_partial",
    "Verif.Pty.C142_standard_violation",
    "Verif.Pty.C142_tcsetpgrp_violation",
    "Verif.Pty.C142_ttyname_partial",
    "Verif.Pty.C142_ttyname_violation",
    "Verif.Pty.C142_speed",
    "Verif.Pty.C142_speed_violation",
    "Verif.Pty.C142_actions",
    "Verif.Pty.C142_cfmakeraw"
   ],
   "note": "Holds for openpty's and forkpty's descriptors, mask and cancellation state, ptsname_r, cfmakeraw, Linux speeds; violated by an unnoticed ptsname_r error, closed standard descriptors, tcsetpgrp's result, ttyname_r's errors, Redox speeds."
  },
  {
   "property": "C143",
   "status": "proved",
   "theorems": [
    "Verif.Wctype.C143_total",
    "Verif.Wctype.C143_mappings",
    "Verif.Wctype.C143_classes",
    "Verif.Wctype.C143_no_character",
    "Verif.Wctype.C143_ascii",
    "Verif.Wctype.C143_names",
    "Verif.Wctype.C143_wcscasecmp",
    "Verif.Wctype.C143_wcsncasecmp",
    "Verif.Wctype.C143_controls"
   ],
   "note": "All theorems for every wint_t. The tables themselves are compared with the source by the generator only; that they agree with the Unicode database is not claimed. wcscasecmp for characters below 2^31, where the difference does not overflow."
  },
  {
   "property": "C144",
   "status": "partial",
   "theorems": [
    "Verif.Locale.C144_initial",
    "Verif.Locale.C144_decimal_point_violation",
    "Verif.Locale.C144_newlocale_C_violation",
    "Verif.Locale.C144_uselocale",
    "Verif.Locale.C144_localeconv",
    "Verif.Locale.C144_failed",
    "Verif.Locale.C144_setlocale_partial",
    "Verif.Locale.C144_frac_digits_violation",
    "Verif.Locale.C144_all_names_violation",
    "Verif.Locale.C144_name_violation",
    "Verif.Locale.C144_newlocale_partial",
    "Verif.Locale.C144_null_base_violation",
    "Verif.Locale.C144_duplocale_partial",
    "Verif.Locale.C144_duplocale_violation"
   ],
   "note": "The C locale made by setlocale, newlocale and duplocale has no decimal point; frac_digits is treated as of LC_NUMERIC; the names for LC_ALL and for single categories are not kept in step; names that are not UTF-8 are taken as C; newlocale with a null base ignores the mask; duplocale of the global locale is not a copy: each is a violation theorem. The rest is proved for every state."
  },
  {
   "property": "C145",
   "status": "partial",
   "theorems": [
    "Verif.Locale.C145_lines",
    "Verif.Locale.C145_string",
    "Verif.Locale.C145_number",
    "Verif.Locale.C145_grouping",
    "Verif.Locale.C145_grouping_end",
    "Verif.Locale.C145_after_quote",
    "Verif.Locale.C145_continued",
    "Verif.Locale.C145_space_violation",
    "Verif.Locale.C145_symbol_violation"
   ],
   "note": "Proved for all files of lines with one keyword and one word; a string with a space and symbolic character names are wrong (violation theorems); continuation lines are modelled and shown in an example only."
  },
  {
   "property": "C146",
   "status": "partial",
   "theorems": [
    "Verif.FileOps.C146_futimens",
    "Verif.FileOps.C146_range_partial",
    "Verif.FileOps.C146_narrow_violation",
    "Verif.FileOps.C146_utimes",
    "Verif.FileOps.C146_utime_partial",
    "Verif.FileOps.C146_utime_null_violation",
    "Verif.FileOps.C146_utimensat_partial",
    "Verif.FileOps.C146_nofollow_violation",
    "Verif.FileOps.C146_unreadable_violation",
    "Verif.FileOps.C146_failed"
   ],
   "note": "`_partial`: a null pointer in utime faults, AT_SYMLINK_NOFOLLOW follows the link, unreadable files on Linux, nanoseconds truncated on Redox (each a `_violation`)."
  },
  {
   "property": "C147",
   "status": "partial",
   "theorems": [
    "Verif.FileOps.C147_fallocate",
    "Verif.FileOps.C147_failed",
    "Verif.FileOps.C147_large_violation"
   ],
   "note": "The end above the largest off_t is passed to the kernel instead of EFBIG (`C147_large_violation`); the rest is proved."
  },
  {
   "property": "C148",
   "status": "partial",
   "theorems": [
    "Verif.FileOps.C148_gethostname_partial",
    "Verif.FileOps.C148_bounds",
    "Verif.FileOps.C148_newline_violation"
   ],
   "note": "A line feed at the end of /etc/hostname becomes part of the name (`C148_newline_violation`)."
  },
  {
   "property": "C149",
   "status": "partial",
   "theorems": [
    "Verif.Messages.C149_strerror",
    "Verif.Messages.C149_unknown",
    "Verif.Messages.C149_buffer",
    "Verif.Messages.C149_strerror_r",
    "Verif.Messages.C149_perror_partial",
    "Verif.Messages.C149_perror_unknown_violation",
    "Verif.Messages.C149_perror_utf8_violation",
    "Verif.Messages.C149_perror_short_violation"
   ],
   "note": "perror: an unknown number, a prefix that is not UTF-8 and short writes are `_violation`s; strerror and strerror_r are proved."
  },
  {
   "property": "C150",
   "status": "partial",
   "theorems": [
    "Verif.Messages.C150_strsignal",
    "Verif.Messages.C150_psignal_partial",
    "Verif.Messages.C150_empty_violation"
   ],
   "note": "An empty prefix is printed as a colon and a blank (`C150_empty_violation`)."
  },
  {
   "property": "C151",
   "status": "partial",
   "theorems": [
    "Verif.Messages.C151_warn",
    "Verif.Messages.C151_err_partial",
    "Verif.Messages.C151_callback_violation",
    "Verif.Messages.C151_set_file"
   ],
   "note": "The callback is called with the error number instead of the status (`C151_callback_violation`)."
  },
  {
   "property": "C152",
   "status": "partial",
   "theorems": [
    "Verif.Mman.C152_sbrk",
    "Verif.Mman.C152_first",
    "Verif.Mman.C152_disjoint",
    "Verif.Mman.C152_brk_partial",
    "Verif.Mman.C152_back_violation",
    "Verif.Mman.C152_null_violation",
    "Verif.Mman.C152_memory_violation"
   ],
   "note": "The break cannot be moved back (`C152_back_violation`), a move to the null pointer is reported as done (`C152_null_violation`), sbrk(0) without memory gives a null pointer (`C152_memory_violation`)."
  },
  {
   "property": "C153",
   "status": "partial",
   "theorems": [
    "Verif.Mman.C153_path",
    "Verif.Mman.C153_names",
    "Verif.Mman.C153_inside_partial",
    "Verif.Mman.C153_outside_violation"
   ],
   "note": "A name with `..` behind its first slashes leads out of the directory (`C153_outside_violation`)."
  },
  {
   "property": "C154",
   "status": "proved",
   "theorems": [
    "Verif.Mman.C154_swab",
    "Verif.Mman.C154_negative"
   ],
   "note": "Source and destination do not overlap."
  },
  {
   "property": "C155",
   "status": "partial",
   "theorems": [
    "Verif.Users.C155_getgroups_partial",
    "Verif.Users.C155_negative",
    "Verif.Users.C155_bounds",
    "Verif.Users.C155_unknown_violation",
    "Verif.Users.C155_enumeration_violation"
   ],
   "note": "Partial: every line of the group database must describe a group; violations: a user without an entry gets ENOENT, and a call restarts an enumeration with getgrent."
  },
  {
   "property": "C156",
   "status": "proved",
   "theorems": [
    "Verif.Dir.C156_getdents",
    "Verif.Dir.C156_failure",
    "Verif.Dir.C156_bad_records"
   ],
   "note": "Redox. The kernel's side is that of C73; lseek does not fail."
  },
  {
   "property": "C157",
   "status": "partial",
   "theorems": [
    "Verif.Mman.C157_mmap_partial",
    "Verif.Mman.C157_munmap",
    "Verif.Mman.C157_mprotect",
    "Verif.Mman.C157_lengths",
    "Verif.Mman.C157_flags_violation",
    "Verif.Mman.C157_msync_violation"
   ],
   "note": "Partial: what the kernel is asked for; violations: MAP_POPULATE and MAP_HUGETLB contain MAP_FIXED, msync always fails."
  },
  {
   "property": "C158",
   "status": "partial",
   "theorems": [
    "Verif.Unistd.C158_ttyname_partial",
    "Verif.Unistd.C158_bounds",
    "Verif.Unistd.C158_errors_violation",
    "Verif.Unistd.C158_notty_violation",
    "Verif.Unistd.C158_ctermid"
   ],
   "note": "Violations: errors are negative, ENAMETOOLONG for ERANGE, no ENOTTY. fpath's conversion of the kernel's path is not modelled."
  },
  {
   "property": "C159",
   "status": "proved",
   "theorems": [
    "Verif.Unistd.C159_daemon",
    "Verif.Unistd.C159_failure",
    "Verif.Unistd.C159_session"
   ],
   "note": "Buffered output and the threads of the caller are not modelled."
  },
  {
   "property": "C160",
   "status": "partial",
   "theorems": [
    "Verif.Unistd.C160_quiet",
    "Verif.Unistd.C160_getpass_partial",
    "Verif.Unistd.C160_bounds",
    "Verif.Unistd.C160_failure",
    "Verif.Unistd.C160_echo_violation"
   ],
   "note": "Partial: all reads and writes succeed; violation: the terminal stays without echo after a failure."
  },
  {
   "property": "C161",
   "status": "partial",
   "theorems": [
    "Verif.Unistd.C161_path",
    "Verif.Unistd.C161_unknown",
    "Verif.Unistd.C161_violation"
   ],
   "note": "Violations: nothing is written for names with the value \"\", and ten names of unistd.h are refused."
  },
  {
   "property": "C162",
   "status": "partial",
   "theorems": [
    "Verif.Unistd.C162_sleep_partial",
    "Verif.Unistd.C162_sleep_violation",
    "Verif.Unistd.C162_usleep"
   ],
   "note": "Violation: an interruption with less than a second left is reported as 0."
  },
  {
   "property": "C163",
   "status": "partial",
   "theorems": [
    "Verif.Unistd.C163_interfaces_partial",
    "Verif.Unistd.C163_buffer_violation"
   ],
   "note": "Violation: if_indextoname does not write into the array."
  },
  {
   "property": "C164",
   "status": "partial",
   "theorems": [
    "Verif.Unistd.C164_wcswidth_partial",
    "Verif.Unistd.C164_end_violation"
   ],
   "note": "Partial: n characters before the end of the string; violation: it does not stop at the end."
  },
  {
   "property": "C165",
   "status": "proved",
   "theorems": [
    "Verif.Misc.C165_div",
    "Verif.Misc.C165_abs"
   ],
   "note": "For every width. A division by zero and the one quotient that cannot be represented panic; ISO C leaves them open."
  },
  {
   "property": "C166",
   "status": "proved",
   "theorems": [
    "Verif.Misc.C166_clock",
    "Verif.Misc.C166_clock_monotone",
    "Verif.Misc.C166_time",
    "Verif.Misc.C166_timespec_get",
    "Verif.Misc.C166_getres"
   ],
   "note": "Times of the kernel have nanoseconds below 10^9; clock is exact for 290000 years, then it wraps."
  },
  {
   "property": "C167",
   "status": "partial",
   "theorems": [
    "Verif.Misc.C167_repeat",
    "Verif.Misc.C167_sequence",
    "Verif.Misc.C167_range",
    "Verif.Misc.C167_seed_violation",
    "Verif.Misc.C167_seed_partial",
    "Verif.Misc.C167_rand_r"
   ],
   "note": "Proved for any generator; that the distribution keeps to 0..=RAND_MAX is a hypothesis. Different seeds: violated, srand keeps the low byte only, so there are 256 sequences (C167_seed_violation)."
  },
  {
   "property": "C168",
   "status": "proved",
   "theorems": [
    "Verif.Misc.C168_seek",
    "Verif.Misc.C168_read",
    "Verif.Misc.C168_slice_write",
    "Verif.Misc.C168_vec_write",
    "Verif.Misc.C168_fpath"
   ],
   "note": "The kernel's path is given as scheme and reference; its parsing by the crate redox_path is not modelled."
  },
  {
   "property": "C169",
   "status": "proved",
   "theorems": [
    "Verif.Misc.C169_pathconf",
    "Verif.Misc.C169_name_max"
   ],
   "note": ""
  },
  {
   "property": "C170",
   "status": "partial",
   "theorems": [
    "Verif.Misc.C170_with_fd",
    "Verif.Misc.C170_remove_partial",
    "Verif.Misc.C170_remove_violation",
    "Verif.Misc.C170_rename_partial",
    "Verif.Misc.C170_rename_violation"
   ],
   "note": "Violated: remove of a file reports the error of rmdir (C170_remove_violation); renameat2 with RENAME_NOREPLACE replaces a file created after the look (C170_rename_violation)."
  },
  {
   "property": "C171",
   "status": "partial",
   "theorems": [
    "Verif.Crypt.C171_verify_partial",
    "Verif.Crypt.C171_pbkdf2_violation",
    "Verif.Crypt.C171_scrypt_violation",
    "Verif.Crypt.C171_bcrypt_violation",
    "Verif.Crypt.C171_argon2",
    "Verif.Crypt.C171_unknown",
    "Verif.Crypt.C171_traditional_violation",
    "Verif.Crypt.C171_overflow_violation"
   ],
   "note": "Proved for MD5, SHA-256, SHA-512 and Argon2, for any hash functions with base-64 output. The code violates it for the other kinds: a Blowfish hash lacks the salt (C171_bcrypt_violation, for hashes without fixed points), a PBKDF2 hash is never accepted as a setting, a scrypt hash is never reproduced; traditional settings give no errno, and a long Argon2 hash overruns the 256 bytes of crypt_data."
  },
  {
   "property": "C172",
   "status": "partial",
   "theorems": [
    "Verif.Regex.C172_exec_partial",
    "Verif.Regex.C172_nosub_violation",
    "Verif.Regex.C172_comp",
    "Verif.Regex.C172_error",
    "Verif.Regex.C172_error_differs",
    "Verif.Regex.C172_error_violation"
   ],
   "note": "Proved with the matcher (crate posix_regex) as a parameter, except where the code violates it: REG_NOSUB given to regcomp is ignored, so that the array is written (C172_nosub_violation), and regerror does not terminate a text that it cuts (C172_error_violation)."
  },
  {
   "property": "C173",
   "status": "partial",
   "theorems": [
    "Verif.BufRead.C173_reader_partial",
    "Verif.BufRead.C173_back_violation"
   ],
   "note": "Proved for all operations, with seek_relative forward only: backward it can lead to stale bytes of the buffer after a large read or a seek (C173_back_violation)."
  },
  {
   "property": "C174",
   "status": "proved",
   "theorems": [
    "Verif.Stdio.C174_putw",
    "Verif.Stdio.C174_getw",
    "Verif.Stdio.C174_round_trip",
    "Verif.Stdio.C174_minus_one",
    "Verif.Stdio.C174_fgetpos",
    "Verif.Stdio.C174_fsetpos",
    "Verif.Stdio.C174_restore",
    "Verif.Stdio.C174_pushed_back"
   ],
   "note": "All of it."
  },
  {
   "property": "C175",
   "status": "proved",
   "theorems": [
    "Verif.NulStr.C175_find_or_all",
    "Verif.NulStr.C175_find",
    "Verif.NulStr.C175_split_first",
    "Verif.NulStr.C175_to_chars",
    "Verif.NulStr.C175_from_with_nul",
    "Verif.NulStr.C175_from_until_nul",
    "Verif.NulStr.C175_split_first_char"
   ],
   "note": "All of it; the conversions between c_char and u8 are left out."
  },
  {
   "property": "C176",
   "status": "proved",
   "theorems": [
    "Verif.IoRead.C176_read",
    "Verif.IoRead.C176_take",
    "Verif.IoRead.C176_chain",
    "Verif.IoRead.C176_read_to_end",
    "Verif.IoRead.C176_read_exact",
    "Verif.IoRead.C176_read_to_string",
    "Verif.IoRead.C176_write_all"
   ],
   "note": "All of it; fill_buf and consume of Take and Chain are not modelled."
  },
  {
   "property": "C177",
   "status": "partial",
   "theorems": [
    "Verif.Uname.C177_uname_partial",
    "Verif.Uname.C177_crlf",
    "Verif.Uname.C177_long_host",
    "Verif.Uname.C177_bounds",
    "Verif.Uname.C177_failure",
    "Verif.Uname.C177_newline_violation"
   ],
   "note": "The line feed that ends /etc/hostname is kept as part of the node name (C177_newline_violation); the rest is proved without restriction."
  },
  {
   "property": "C178",
   "status": "partial",
   "theorems": [
    "Verif.Ioctl.C178_set_get",
    "Verif.Ioctl.C178_get",
    "Verif.Ioctl.C178_set",
    "Verif.Ioctl.C178_command",
    "Verif.Ioctl.C178_nonblock",
    "Verif.Ioctl.C178_unknown",
    "Verif.Ioctl.C178_buffer",
    "Verif.Ioctl.C178_ignored_violation",
    "Verif.Ioctl.C178_sid",
    "Verif.Ioctl.C178_sid_violation"
   ],
   "note": "SIOCATMARK and TIOCSCTTY report success and do nothing, FIONREAD is unknown (C178_ignored_violation); TIOCGSID stores -1 and succeeds when the session cannot be found (C178_sid_violation). The device and the graphics requests behind drm::ioctl are parameters."
  },
  {
   "property": "C179",
   "status": "partial",
   "theorems": [
    "Verif.Sysconf.C179_cpus_partial",
    "Verif.Sysconf.C179_one",
    "Verif.Sysconf.C179_no_number",
    "Verif.Sysconf.C179_minima",
    "Verif.Sysconf.C179_unknown",
    "Verif.Sysconf.C179_memory",
    "Verif.Sysconf.C179_cut_violation",
    "Verif.Sysconf.C179_memory_violation"
   ],
   "note": "Only the first 128 bytes of the processor file are looked at, and a number cut there is taken as it is (C179_cut_violation); if the memory cannot be asked for, the answer is -1 without an error (C179_memory_violation). Only ASCII white space is trimmed in the model."
  }
 ]
}
