{
 "claims": [
  {
   "property": "C01",
   "status": "proved",
   "theorems": [
    "Ecl.Props.C01_fifo_refines_window",
    "Ecl.Props.C01_fifo_last_values",
    "Ecl.Props.C01_large_length_wraps"
   ],
   "note": "For lengths up to 2^31 (what an int index can address); beyond that the unsigned sum wraps (C01_large_length_wraps)."
  },
  {
   "property": "C02",
   "status": "partial",
   "theorems": [
    "Ecl.Props.C02_fifo_safe_partial",
    "Ecl.Props.C02_fails_shrink",
    "Ecl.Props.C02_fails_stuck",
    "Ecl.Props.C02_fails_resize_zero",
    "Ecl.Props.C02_fails_default"
   ],
   "note": "False of the code: shrinking resize keeps the running index (release: out-of-bounds write; debug: every later push is refused and moves the index further, C02_fails_stuck), resize(0) and length 0 divide by zero. The _partial theorem covers every history whose resizes stay above get_idx()."
  },
  {
   "property": "C03",
   "status": "proved",
   "theorems": [
    "Ecl.Props.C03_push_and_pop_refines_queue",
    "Ecl.Props.C03_spec_bounded",
    "Ecl.Props.C03_spec_pushes",
    "Ecl.Props.C03_push_and_pop_no_ub",
    "Ecl.Props.C03_release_pop_empty"
   ],
   "note": "Every legal history in both modes, any capacity with cap+1<2^31, refined to a list queue; memory safety for all histories; release pop on empty characterised."
  },
  {
   "property": "C04",
   "status": "partial",
   "theorems": [
    "Ecl.Props.C04_dynamic_refines_queue_partial",
    "Ecl.Props.C04_resize_clear_refines_queue_partial",
    "Ecl.Props.C04_fails_resize",
    "Ecl.Props.C04_fails_stuck",
    "Ecl.Props.C04_fails_refused_pop",
    "Ecl.Props.C04_fails_resize_max",
    "Ecl.Props.C04_fails_longest",
    "Ecl.Props.C04_fails_resize_grow",
    "Ecl.Props.C04_fails_default",
    "Ecl.Props.C04_allocated"
   ],
   "note": "False of the code after resize, also after a refused one, for the default constructor and for a length of 2^32 - 1 (refuted; in debug builds refused calls after a shrinking resize change what the queue reports). Proved for histories without resize, and after resize followed by clear()."
  },
  {
   "property": "C05",
   "status": "proved",
   "theorems": [
    "Ecl.Props.C05_at",
    "Ecl.Props.C05_index_debug",
    "Ecl.Props.C05_index_release",
    "Ecl.Props.C05_write",
    "Ecl.Props.C05_front_back",
    "Ecl.Props.C05_front_empty",
    "Ecl.Props.C05_dynamic"
   ],
   "note": "Fixed and dynamic arrays; operator[] out of range in release builds is shown undefined."
  },
  {
   "property": "C06",
   "status": "proved",
   "theorems": [
    "Ecl.Props.C06_init_fixed",
    "Ecl.Props.C06_init_dynamic",
    "Ecl.Props.C06_init_elements",
    "Ecl.Props.C06_init_debug_safe"
   ],
   "note": "All sizes and value counts, both build modes."
  },
  {
   "property": "C07",
   "status": "partial",
   "theorems": [
    "Ecl.Props.C07_step",
    "Ecl.Props.C07_value_semantics_partial",
    "Ecl.Props.C07_write_outside",
    "Ecl.Props.C07_fails_self_assignment"
   ],
   "note": "Self-assignment loses the contents (refuted). All other histories refine value semantics on a heap model with ownership."
  },
  {
   "property": "C08",
   "status": "proved",
   "theorems": [
    "Ecl.Props.C08_under_run_iff",
    "Ecl.Props.C08_over_run_iff",
    "Ecl.Props.C08_no_false_alarm",
    "Ecl.Props.C08_detects"
   ],
   "note": "Exact characterisation of both queries over all write histories; padding between guards and elements is a parameter."
  },
  {
   "property": "C09",
   "status": "partial",
   "theorems": [
    "Ecl.Props.C09_create",
    "Ecl.Props.C09_read",
    "Ecl.Props.C09_write",
    "Ecl.Props.C09_access_decided",
    "Ecl.Props.C09_front_back",
    "Ecl.Props.C09_at_partial",
    "Ecl.Props.C09_sub_partial",
    "Ecl.Props.C09_assign_other",
    "Ecl.Props.C09_fails_at_zero",
    "Ecl.Props.C09_fails_one_past_end",
    "Ecl.Props.C09_fails_index_outside_stencil",
    "Ecl.Props.C09_fails_sub_escapes",
    "Ecl.Props.C09_array_stencil_wrap",
    "Ecl.Props.C09_fails_resettle"
   ],
   "note": "Read/write/copy proved for in-range windows; at(0), one-past-end access, index and sub-stencil bounds are refuted."
  },
  {
   "property": "C10",
   "status": "partial",
   "theorems": [
    "Ecl.Props.C10_little_endian",
    "Ecl.Props.C10_read",
    "Ecl.Props.C10_round_trip",
    "Ecl.Props.C10_wrong_size",
    "Ecl.Props.C10_fails_other_sizes"
   ],
   "note": "Round trip, byte order and debug-mode size checks proved for all values; refuted: shorter arrays are read silently and release builds read on past the type's size (undefined shift for 32 bit types)."
  },
  {
   "property": "C11",
   "status": "partial",
   "theorems": [
    "Ecl.Props.C11_fails_round_trip",
    "Ecl.Props.C11_fails_sign_extension",
    "Ecl.Props.C11_short_arrays_partial",
    "Ecl.Props.C11_write"
   ],
   "note": "False of the code: for every 64 bit value the way back shifts an int by 32 (undefined); proved: writing is exact, reading arrays of value below 2^31."
  },
  {
   "property": "C12",
   "status": "partial",
   "theorems": [
    "Ecl.Props.C12_accepts",
    "Ecl.Props.C12_accepted_iff",
    "Ecl.Props.C12_rejects",
    "Ecl.Props.C12_fails_truncated"
   ],
   "note": "Exact characterisation of the accepted texts for all inputs; refuted: an unfinished token at the end is accepted silently."
  },
  {
   "property": "C13",
   "status": "partial",
   "theorems": [
    "Ecl.Props.C13_numeral_partial",
    "Ecl.Props.C13_fails_INT_MIN",
    "Ecl.Props.C13_parse",
    "Ecl.Props.C13_round_trip_partial",
    "Ecl.Props.C13_accepts_only_integers"
   ],
   "note": "Proved for every int except INT_MIN, for which the negation overflows (refuted). The istringstream extraction is modelled from the standard."
  },
  {
   "property": "C14",
   "status": "partial",
   "theorems": [
    "Ecl.Props.C14_unsigned",
    "Ecl.Props.C14_signed_partial",
    "Ecl.Props.C14_short",
    "Ecl.Props.C14_fails_minimum",
    "Ecl.Props.C14_fails_negative_char",
    "Ecl.Props.C14_fails_own_buffer"
   ],
   "note": "Exact fits-iff characterisation for unsigned types and short, and for int/long except the minimum; refuted: the minimum of int/long, negative char, buffer size 0."
  },
  {
   "property": "C15",
   "status": "proved",
   "theorems": [
    "Ecl.Props.C15_digit_round_trip",
    "Ecl.Props.C15_char_round_trip",
    "Ecl.Props.C15_rejects"
   ],
   "note": "Both directions, both build modes, all inputs."
  },
  {
   "property": "C16",
   "status": "proved",
   "theorems": [
    "Ecl.Props.C16_exact",
    "Ecl.Props.C16_normalised"
   ],
   "note": "Exactness for all timestamps, normalisation and absence of overflow for all normalised timestamps with representable sum."
  },
  {
   "property": "C17",
   "status": "partial",
   "theorems": [
    "Ecl.Props.C17_exact",
    "Ecl.Props.C17_same_sign_partial",
    "Ecl.Props.C17_fails_opposite_signs",
    "Ecl.Props.C17_fails_overflow",
    "Ecl.Props.C17_decides"
   ],
   "note": "Exactness proved; normalisation proved for operands of equal sign; refuted for opposite signs, and an overflow at the extreme of long; complete decision: exactly when it overflows, and exactly when the result is normalised."
  },
  {
   "property": "C18",
   "status": "proved",
   "theorems": [
    "Ecl.Props.C18_order",
    "Ecl.Props.C18_antisymm"
   ],
   "note": "All six operators, all normalised timestamps."
  },
  {
   "property": "C19",
   "status": "partial",
   "theorems": [
    "Ecl.Props.C19_constructor",
    "Ecl.Props.C19_sleep_millisleep",
    "Ecl.Props.C19_duration",
    "Ecl.Props.C19_micro_nano_partial",
    "Ecl.Props.C19_fails_invalid_request",
    "Ecl.Props.C19_fails_stale_seconds",
    "Ecl.Props.C19_micro_nano_decides"
   ],
   "note": "Constructors of all classes, all call histories of Sleep and MilliSleep proved; MicroSleep/NanoSleep call arguments refuted (stale seconds, invalid nsec) and proved below a second; exactly which request every call of every history makes."
  },
  {
   "property": "C20",
   "status": "partial",
   "theorems": [
    "Ecl.Props.C20_schedule_partial",
    "Ecl.Props.C20_valid_off_boundary",
    "Ecl.Props.C20_fails_boundary",
    "Ecl.Props.C20_fails_disabled_validation",
    "Ecl.Props.C20_all_histories"
   ],
   "note": "Drift-free schedule proved for any number of on-time calls; refuted: nsec=10^9 on a full second, resynchronisation although validation is disabled; for all clock readings, what every call of every history asks for."
  },
  {
   "property": "C21",
   "status": "partial",
   "theorems": [
    "Ecl.Props.C21_splits_add_up",
    "Ecl.Props.C21_restart",
    "Ecl.Props.C21_fails_before_restart"
   ],
   "note": "Proved after a restart for all clock readings; refuted before the first restart of a StopWatch (two different reference readings)."
  },
  {
   "property": "C22",
   "status": "proved",
   "theorems": [
    "Ecl.Props.C22_text",
    "Ecl.Props.C22_units"
   ],
   "note": "All normalised timestamps."
  },
  {
   "property": "C23",
   "status": "partial",
   "theorems": [
    "Ecl.Props.C23_queue_partial",
    "Ecl.Props.C23_reads_prefix_partial",
    "Ecl.Props.C23_fails_long_run",
    "Ecl.Props.C23_fails_after_clear"
   ],
   "note": "Proved for all histories without clear after reading and whose writes keep the device below its fixed growth; refuted: a long run of single-character writes overruns the buffer, reading after clear."
  },
  {
   "property": "C24",
   "status": "partial",
   "theorems": [
    "Ecl.Props.C24_all_bytes",
    "Ecl.Props.C24_nothing_added",
    "Ecl.Props.C24_complete_partial",
    "Ecl.Props.C24_fails_nul"
   ],
   "note": "Complete and in order for all histories of bytes other than NUL; refuted: the buffer is handed to the stream as a C string, so output stops at a NUL byte; for all bytes, exactly what reaches the terminal, and that nothing is added."
  },
  {
   "property": "C25",
   "status": "partial",
   "theorems": [
    "Ecl.Props.C25_sharing_partial",
    "Ecl.Props.C25_opened_once_partial",
    "Ecl.Props.C25_fails_failed_open",
    "Ecl.Props.C25_fails_empty_flush",
    "Ecl.Props.C25_fails_shared_error",
    "Ecl.Props.C25_fails_default_constructor",
    "Ecl.Props.C25_fails_reopen"
   ],
   "note": "Refinement to a map of shared files for all histories of constructed handles whose opens succeed; refuted: a failed open leaves the name registered and the mutex locked (next open hangs or shares a broken file), flushing nothing sets an error, an error is shared by all handles, default constructor, re-opening."
  },
  {
   "property": "C26",
   "status": "partial",
   "theorems": [
    "Ecl.Props.C26_complete_partial",
    "Ecl.Props.C26_fails_destruction"
   ],
   "note": "Order and completeness up to fewer than 4096 pending bytes, none after a flush, for every history and any number of handles; refuted: destruction loses the pending bytes."
  },
  {
   "property": "C27",
   "status": "partial",
   "theorems": [
    "Ecl.Props.C27_waits_partial",
    "Ecl.Props.C27_hardware_partial",
    "Ecl.Props.C27_delivers_in_order",
    "Ecl.Props.C27_fails_long",
    "Ecl.Props.C27_fails_zero",
    "Ecl.Props.C27_fails_last_step",
    "Ecl.Props.C27_fails_full_second",
    "Ecl.Props.C27_fails_huge",
    "Ecl.Props.C27_closed",
    "Ecl.Props.C27_unblocked",
    "Ecl.Props.C27_byte_partial"
   ],
   "note": "Lower bound on waiting for 0<t<100 (any arrivals, clock readings and wake-up delays) and exact waiting for 100<=t<25600; order and completeness of delivery for all; refuted: t a multiple of 25600, t=0, t>=2^63, a wake-up on a full second, bytes arriving in the last polling step."
  },
  {
   "property": "C28",
   "status": "partial",
   "theorems": [
    "Ecl.Props.C28_server_all",
    "Ecl.Props.C28_client_partial",
    "Ecl.Props.C28_server_partial",
    "Ecl.Props.C28_client_closed",
    "Ecl.Props.C28_fails_server_closed",
    "Ecl.Props.C28_fails_server_reset",
    "Ecl.Props.C28_fails_empty_read",
    "Ecl.Props.C28_fails_large_read",
    "Ecl.Props.C28_remaining_partial",
    "Ecl.Props.C28_fails_remaining",
    "Ecl.Props.C28_status_partial",
    "Ecl.Props.C28_fails_status"
   ],
   "note": "Client: refinement to a link specification for every history of reads, peeks and writes of 1..2^31-1 bytes; server: for reads without resets; refuted: server write/peek on a closed connection, resets, empty reads, large reads, remaining(); for all histories, exactly what the server reports. The error status after a call that succeeds is cleared, except by a client write (C28_fails_status)."
  },
  {
   "property": "C29",
   "status": "partial",
   "theorems": [
    "Ecl.Props.C29_emit_counts_partial",
    "Ecl.Props.C29_emit_reaches",
    "Ecl.Props.C29_emit_ends_partial",
    "Ecl.Props.C29_fails_cycle"
   ],
   "note": "Exact call counts for every legal history when no subscriber is a signal; with relaying signals the exact set of endpoints reached, termination without relay cycles; refuted: a cycle of relays never ends. Slots that change connections while being called are the subject of C93, slots that throw of C123."
  },
  {
   "property": "C30",
   "status": "partial",
   "theorems": [
    "Ecl.Props.C30_topics_exact_partial",
    "Ecl.Props.C30_disconnected_partial",
    "Ecl.Props.C30_fails_lonely"
   ],
   "note": "No undefined behaviour and the exact contents of every topic after every legal history, others unaffected; refuted: disconnecting the only publisher of a topic that is also its only subscriber, and (C31) assignment of handles."
  },
  {
   "property": "C31",
   "status": "partial",
   "theorems": [
    "Ecl.Props.C31_handles_partial",
    "Ecl.Props.C31_fails_assign",
    "Ecl.Props.C31_decided"
   ],
   "note": "Exact for every history of construction, copy, destruction and assignment between handles of one endpoint; refuted: assignment between different endpoints deletes early (double delete) and leaks. Without assignments it is decided which histories are undefined (C31_decided)."
  },
  {
   "property": "C32",
   "status": "partial",
   "theorems": [
    "Ecl.Props.C32_exclusion_partial",
    "Ecl.Props.C32_trylock",
    "Ecl.Props.C32_atomic_unlock",
    "Ecl.Props.C32_fails_race",
    "Ecl.Props.C32_fails_count",
    "Ecl.Props.C32_fails_interrupted",
    "Ecl.Props.C32_fails_unlinked"
   ],
   "note": "Every interleaving of any number of correctly used objects including crashes; trylock never blocks; refuted: unlocking by non-holders races (count 2, two inside), interrupted waits, destruction unlinks the name for later processes."
  },
  {
   "property": "C33",
   "status": "partial",
   "theorems": [
    "Ecl.Props.C33_decides",
    "Ecl.Props.C33_deadline_partial",
    "Ecl.Props.C33_fails_carry",
    "Ecl.Props.C33_fails_negative",
    "Ecl.Props.C33_answer"
   ],
   "note": "Exact for every normalised time and nonnegative duration unless the nanoseconds add up to 999999999, where it is proved to be a second late; refuted for negative fractions; complete decision for all durations."
  },
  {
   "property": "C34",
   "status": "partial",
   "theorems": [
    "Ecl.Props.C34_decides",
    "Ecl.Props.C34_true_only_if_acquired_debug",
    "Ecl.Props.C34_true_only_if_acquired_release_partial",
    "Ecl.Props.C34_fails_release",
    "Ecl.Props.C34_fails_no_wait",
    "Ecl.Props.C34_free"
   ],
   "note": "True only if acquired: always in debug, in release for nanoseconds in range (refuted otherwise); the waiting part is refuted for every duration not longer than the time since the epoch; complete decision for all owners, durations and builds."
  },
  {
   "property": "C35",
   "status": "partial",
   "theorems": [
    "Ecl.Props.C35_one_thread",
    "Ecl.Props.C35_life_partial",
    "Ecl.Props.C35_isRunning_partial",
    "Ecl.Props.C35_join_waits",
    "Ecl.Props.C35_fails_isRunning",
    "Ecl.Props.C35_fails_cancel_late",
    "Ecl.Props.C35_fails_cancel_early",
    "Ecl.Props.C35_fails_join_cancelled",
    "Ecl.Props.C35_fails_join_twice",
    "Ecl.Props.C35_fails_join_first",
    "Ecl.Props.C35_fails_create",
    "Ecl.Props.C35_decides",
    "Ecl.Props.C35_leak_iff"
   ],
   "note": "At most one thread for every history; resources exactly once, exact isRunning before the end, for every history without the refuted orders; refuted: isRunning after the end, cancel late/early, join after cancel, join twice, join before start, failed creation; complete decision for all histories, exactly when a handle leaks."
  },
  {
   "property": "C36",
   "status": "partial",
   "theorems": [
    "Ecl.Props.C36_realtime_partial",
    "Ecl.Props.C36_nice_partial",
    "Ecl.Props.C36_fails_background",
    "Ecl.Props.C36_fails_after_realtime",
    "Ecl.Props.C36_refused_reported",
    "Ecl.Props.C36_fails_refused",
    "Ecl.Props.C36_fails_small_range",
    "Ecl.Props.C36_realtime_decides",
    "Ecl.Props.C36_nice_decides"
   ],
   "note": "Real time levels on every system with a range of at least 10; nice levels where permitted; refuted: background on Linux, any level after a real time level, refused levels, ranges of 5 to 9; complete decision of what is read back, for all levels and systems."
  },
  {
   "property": "C37",
   "status": "partial",
   "theorems": [
    "Ecl.Props.C37_standard",
    "Ecl.Props.C37_data",
    "Ecl.Props.C37_lines_read_back",
    "Ecl.Props.C37_fails_nul"
   ],
   "note": "Every chain of rethrows, every text without NUL; the report's lines can be read back; refuted: text after a NUL in the message is lost."
  },
  {
   "property": "C38",
   "status": "partial",
   "theorems": [
    "Ecl.Props.C38_operators",
    "Ecl.Props.C38_history",
    "Ecl.Props.C38_testFlag",
    "Ecl.Props.C38_fails_all_bits",
    "Ecl.Props.C38_fails_Bit0"
   ],
   "note": "Operators and every history of assigning operators; testFlag exact: membership for one-bit flags; refuted: testFlag of several bits means some, not all; Bit0 is zero."
  },
  {
   "property": "C39",
   "status": "partial",
   "theorems": [
    "Ecl.Props.C39_sign",
    "Ecl.Props.C39_isApprox",
    "Ecl.Props.C39_relative",
    "Ecl.Props.C39_lessThan",
    "Ecl.Props.C39_integers_partial",
    "Ecl.Props.C39_defaults",
    "Ecl.Props.C39_fails_zero_precision",
    "Ecl.Props.C39_fails_symmetry"
   ],
   "note": "Any linearly ordered field (exact arithmetic); refuted: precision 0 for an integer and a double, symmetry with default precisions of short and double."
  },
  {
   "property": "C40",
   "status": "partial",
   "theorems": [
    "Ecl.Props.C40_strip",
    "Ecl.Props.C40_format_partial",
    "Ecl.Props.C40_fails_decimal",
    "Ecl.Props.C40_fails_constructor_width"
   ],
   "note": "Every type, width, alignment and base except negative char / smallest values in decimal (refuted) and widths within 1000 of INT_MIN; refuted: a constructor width without alignment has no effect."
  },
  {
   "property": "C41",
   "status": "partial",
   "theorems": [
    "Ecl.Props.C41_one_use_partial",
    "Ecl.Props.C41_fails_width_base",
    "Ecl.Props.C41_fails_strings",
    "Ecl.Props.C41_fails_floats",
    "Ecl.Props.C41_one_use_floats_partial"
   ],
   "note": "Every history of calls of integer formatters other than (n,w,b), and of floating point formatters without temporary widths in unaligned formatters; refuted: those, and string formatters."
  },
  {
   "property": "C42",
   "status": "partial",
   "theorems": [
    "Ecl.Props.C42_long_decides",
    "Ecl.Props.C42_lone_zero_decides",
    "Ecl.Props.C42_decimal_partial",
    "Ecl.Props.C42_sound_partial",
    "Ecl.Props.C42_rejects",
    "Ecl.Props.C42_fails_limits",
    "Ecl.Props.C42_fails_lone_zero",
    "Ecl.Props.C42_fails_many_zeros"
   ],
   "note": "Exact for every type, every text of up to 25 digits and every continuation, below 10*(maximum/10); every non-number rejected; refuted: the topmost values of each type and the minima are rejected, a lone zero followed by other text, more than 25 digits; exactly what is read in those cases."
  },
  {
   "property": "C43",
   "status": "partial",
   "theorems": [
    "Ecl.Props.C43_decides",
    "Ecl.Props.C43_hex_partial",
    "Ecl.Props.C43_rejects",
    "Ecl.Props.C43_fails_large",
    "Ecl.Props.C43_fails_sign"
   ],
   "note": "Exact up to 0x7FFF for every type; refuted above (short accumulator, truncation) and for signed hexadecimal numbers; complete decision for all numbers of up to 24 digits."
  },
  {
   "property": "C44",
   "status": "partial",
   "theorems": [
    "Ecl.Props.C44_put_partial",
    "Ecl.Props.C44_round_trip_partial",
    "Ecl.Props.C44_fresh",
    "Ecl.Props.C44_chain_partial",
    "Ecl.Props.C44_fails_limits"
   ],
   "note": "Every list of integers of magnitude below 10*(maximum/10) of every type; refuted at the limits."
  },
  {
   "property": "C45",
   "status": "proved",
   "theorems": [
    "Ecl.Props.C45_word",
    "Ecl.Props.C45_no_word",
    "Ecl.Props.C45_no_word_keeps",
    "Ecl.Props.C45_words",
    "Ecl.Props.C45_bool",
    "Ecl.Props.C45_bool_none",
    "Ecl.Props.C45_bool_round_trip"
   ],
   "note": "Words for every text, the whole sequence of words, and the exact set of accepted booleans."
  },
  {
   "property": "C46",
   "status": "partial",
   "theorems": [
    "Ecl.Props.C46_fraction_partial",
    "Ecl.Props.C46_integer_partial",
    "Ecl.Props.C46_rejects",
    "Ecl.Props.C46_fails_end"
   ],
   "note": "Exact (unrounded arithmetic) for every number of up to 25+25 digits that is followed by a further character; refuted at the end of the input (last digit dropped)."
  },
  {
   "property": "C47",
   "status": "partial",
   "theorems": [
    "Ecl.Props.C47_history_partial",
    "Ecl.Props.C47_fails_raw_log",
    "Ecl.Props.C47_fails_new_header",
    "Ecl.Props.C47_fails_default_constructor",
    "Ecl.Props.C47_decides"
   ],
   "note": "Refinement for every history using the LOG macro (or log on enabled modes) on a stream opened by name; refuted: log on a disabled mode enables it, a new header is ignored, default constructor; complete decision for all histories of both kinds of streams."
  },
  {
   "property": "C48",
   "status": "partial",
   "theorems": [
    "Ecl.Props.C48_values_partial",
    "Ecl.Props.C48_attached_partial",
    "Ecl.Props.C48_integers",
    "Ecl.Props.C48_duplicate_rejected",
    "Ecl.Props.C48_missing_value_rejected",
    "Ecl.Props.C48_bad_value_rejected",
    "Ecl.Props.C48_unknown_rejected",
    "Ecl.Props.C48_fails_attached",
    "Ecl.Props.C48_fails_star",
    "Ecl.Props.C48_fails_empty",
    "Ecl.Props.C48_integer_texts",
    "Ecl.Props.C48_character_texts",
    "Ecl.Props.C48_integer_argument",
    "Ecl.Props.C48_text_argument"
   ],
   "note": "Every program and every sequence of good items in separate texts, without exclusive groups, and attached with a delimiter under stated conditions; duplicates, unknown labels, missing and bad values rejected after any good sequence; the texts read as integers and characters characterised (integers round trip), and integer and text arguments with allowed values decided for every text; refuted: attached values containing a star or a switch character, empty values."
  },
  {
   "property": "C49",
   "status": "partial",
   "theorems": [
    "Ecl.Props.C49_required_partial",
    "Ecl.Props.C49_switches_partial",
    "Ecl.Props.C49_missing_required_rejected",
    "Ecl.Props.C49_fails_counting",
    "Ecl.Props.C49_fails_combined"
   ],
   "note": "Every program whose exclusive groups hold arguments for one value, and (without combinations) switches; refuted: counting switches in a group, combined exclusive switches."
  },
  {
   "property": "C50",
   "status": "partial",
   "theorems": [
    "Ecl.Props.C50_together_partial",
    "Ecl.Props.C50_together_after_items_partial",
    "Ecl.Props.C50_effect",
    "Ecl.Props.C50_value_characters_partial",
    "Ecl.Props.C50_fails_exclusive",
    "Ecl.Props.C50_fails_value_characters"
   ],
   "note": "Every program, every set of switches outside groups, whatever follows and after any good items: identical outcome; the exact effect; separate value texts never touch switches; refuted: exclusive groups, attached values."
  },
  {
   "property": "C51",
   "status": "proved",
   "theorems": [
    "Ecl.Props.C51_wrap",
    "Ecl.Props.C51_class",
    "Ecl.Props.C51_units",
    "Ecl.Props.C51_rotation"
   ],
   "note": "Exact real arithmetic with C fmod; also the Angle class, unit conversions and rotation matrices."
  },
  {
   "property": "C52",
   "status": "partial",
   "theorems": [
    "Ecl.Props.C52_evaluation",
    "Ecl.Props.C52_shift_partial",
    "Ecl.Props.C52_fails_large"
   ],
   "note": "Every degree for evaluation and derivatives, up to 33 for shift_horizontal; refuted from 34 on (int overflow in Pascal's triangle). Exact field arithmetic."
  },
  {
   "property": "C53",
   "status": "proved",
   "theorems": [
    "Ecl.Props.C53_linear",
    "Ecl.Props.C53_point_slope",
    "Ecl.Props.C53_cubic_derivative",
    "Ecl.Props.C53_cubic_second_derivative",
    "Ecl.Props.C53_quintic"
   ],
   "note": "Every field of characteristic zero, distinct end points."
  },
  {
   "property": "C54",
   "status": "partial",
   "theorems": [
    "Ecl.Props.C54_division",
    "Ecl.Props.C54_remainder",
    "Ecl.Props.C54_linear_partial",
    "Ecl.Props.C54_quadratic_partial",
    "Ecl.Props.C54_cubic_roots_partial",
    "Ecl.Props.C54_cubic_numbers_partial",
    "Ecl.Props.C54_fails_nan",
    "Ecl.Props.C54_cubic_nan",
    "Ecl.Props.C54_fails_degenerate",
    "Ecl.Props.C54_fails_zero",
    "Ecl.Props.C54_special_values",
    "Ecl.Props.C54_degenerate"
   ],
   "note": "Division proved; linear and quadratic roots exact unless identically zero; cubic roots exact with non-zero leading coefficient; refuted: NaN results for x^3+x, cubics with zero leading coefficient, the zero polynomial; all of these cases decided, with infinities and NaN computed. Exact real arithmetic on numbers; with rounding see C149."
  },
  {
   "property": "C55",
   "status": "proved",
   "theorems": [
    "Ecl.Props.C55_special_values",
    "Ecl.Props.C55_maximum_cubic",
    "Ecl.Props.C55_minimum_cubic",
    "Ecl.Props.C55_linear"
   ],
   "note": "Every cubic and linear function, every interval; exact real arithmetic on numbers, with infinities and NaN computed; with rounding, see C148."
  },
  {
   "property": "C56",
   "status": "proved",
   "theorems": [
    "Ecl.Props.C56_natural",
    "Ecl.Props.C56_clamped",
    "Ecl.Props.C56_refused",
    "Ecl.Props.C56_outside"
   ],
   "note": "Natural and clamped splines, any number of points from two, evaluation outside the domain described. Exact real arithmetic."
  },
  {
   "property": "C57",
   "status": "proved",
   "theorems": [
    "Ecl.Props.C57_heuristic",
    "Ecl.Props.C57_inner_slopes"
   ],
   "note": "Any number of points from two; inner slopes also stated. Exact real arithmetic."
  },
  {
   "property": "C58",
   "status": "partial",
   "theorems": [
    "Ecl.Props.C58_natural_partial",
    "Ecl.Props.C58_fails_two_points",
    "Ecl.Props.C58_refused"
   ],
   "note": "From three points on, any positive tension; refuted for two points (access behind the working arrays). Exact real arithmetic."
  },
  {
   "property": "C59",
   "status": "proved",
   "theorems": [
    "Ecl.Props.C59_smooth",
    "Ecl.Props.C59_ends",
    "Ecl.Props.C59_large_bound",
    "Ecl.Props.C59_refused"
   ],
   "note": "Increasing abscissae, any number of waypoints from two; construction either throws or the result is C2 within the bound; also that a large enough bound is always met. Exact real arithmetic."
  },
  {
   "property": "C60",
   "status": "proved",
   "theorems": [
    "Ecl.Props.C60_segment",
    "Ecl.Props.C60_path",
    "Ecl.Props.C60_pose",
    "Ecl.Props.C60_empty"
   ],
   "note": "Every segment and every non-empty trajectory; the empty trajectory aborts in debug mode and is undefined in release mode. Exact real arithmetic."
  },
  {
   "property": "C61",
   "status": "partial",
   "theorems": [
    "Ecl.Props.C61_line_partial",
    "Ecl.Props.C61_fails_vertical",
    "Ecl.Props.C61_vertical"
   ],
   "note": "Every segment that is not vertical, and vertical ones on the axis; refuted: vertical segments beside the y axis. Exact real arithmetic; with rounding see C150."
  },
  {
   "property": "C62",
   "status": "partial",
   "theorems": [
    "Ecl.Props.C62_concatenate",
    "Ecl.Props.C62_concatenate_laws",
    "Ecl.Props.C62_extend_partial",
    "Ecl.Props.C62_fails_extend_self",
    "Ecl.Props.C62_matrix_group",
    "Ecl.Props.C62_matrix_motion",
    "Ecl.Props.C62_storages",
    "Ecl.Props.C62_angle_group",
    "Ecl.Props.C62_spatial",
    "Ecl.Props.C62_embedding"
   ],
   "note": "Every pose in all four representations (vectors, rotation matrices, angles, spatial poses); headings up to whole turns; refuted: extend_pose with the same object as both arguments. Exact real arithmetic."
  },
  {
   "property": "C63",
   "status": "proved",
   "theorems": [
    "Ecl.Props.C63_round_trip",
    "Ecl.Props.C63_rates",
    "Ecl.Props.C63_base_differential"
   ],
   "note": "Axle length and wheel radius not zero; also the reverse direction and PoseToBaseDifferential. Exact real arithmetic."
  },
  {
   "property": "C64",
   "status": "partial",
   "theorems": [
    "Ecl.Props.C64_append_partial",
    "Ecl.Props.C64_fails_append",
    "Ecl.Props.C64_overwrites",
    "Ecl.Props.C64_append_iff",
    "Ecl.Props.C64_vector",
    "Ecl.Props.C64_read_back",
    "Ecl.Props.C64_resize",
    "Ecl.Props.C64_setAt",
    "Ecl.Props.C64_poses"
   ],
   "note": "Appending proved for empty targets only and refuted otherwise (the exact result is given); vectorToTrajectory, access and assignment proved. Exact real arithmetic."
  },
  {
   "property": "C65",
   "status": "proved",
   "theorems": [
    "Ecl.Props.C65_statistics"
   ],
   "note": "Every history of pushes and clears, whatever the members held before. Exact real arithmetic."
  },
  {
   "property": "C66",
   "status": "proved",
   "theorems": [
    "Ecl.Props.C66_ellipse",
    "Ecl.Props.C66_rotation",
    "Ecl.Props.C66_default",
    "Ecl.Props.C66_computed_unit",
    "Ecl.Props.C66_spatial"
   ],
   "note": "Every symmetric positive definite 2x2 matrix; rotation(); the spatial class relative to the results of Eigen's solver. Exact real arithmetic."
  },
  {
   "property": "C67",
   "status": "partial",
   "theorems": [
    "Ecl.Props.C67_rows_partial",
    "Ecl.Props.C67_size_partial",
    "Ecl.Props.C67_fails_large"
   ],
   "note": "N up to 33, the general template and both specialisations; refuted from 34 on."
  },
  {
   "property": "C68",
   "status": "partial",
   "theorems": [
    "Ecl.Props.C68_window",
    "Ecl.Props.C68_constructor",
    "Ecl.Props.C68_fails_mixed_clocks",
    "Ecl.Props.C68_silent"
   ],
   "note": "Every window of every history proved on exact (unrounded) intervals; refuted for the first window of monitors not using the realtime clock (two different clocks)."
  },
  {
   "property": "C69",
   "status": "partial",
   "theorems": [
    "Ecl.Props.C69_durations_partial",
    "Ecl.Props.C69_fails_unvalidated",
    "Ecl.Props.C69_empty",
    "Ecl.Props.C69_total_sum",
    "Ecl.Props.C69_total"
   ],
   "note": "Every trajectory that passes validateWaypoints, as linearSplineInterpolation requires; also exact conditions for failure and minimality; refuted without the validation (a release build of tensionSplineInterpolation ignores its result). Exact real arithmetic; C153 has rounding."
  },
  {
   "property": "C70",
   "status": "partial",
   "theorems": [
    "Ecl.Props.C70_read_partial",
    "Ecl.Props.C70_fails_byte_255",
    "Ecl.Props.C70_end_of_input",
    "Ecl.Props.C70_line_partial",
    "Ecl.Props.C70_fails_nul"
   ],
   "note": "All inputs without the byte 255 (char reads) / NUL (line reads); both refuted for those bytes."
  },
  {
   "property": "C71",
   "status": "partial",
   "theorems": [
    "Ecl.Props.C71_contents_partial",
    "Ecl.Props.C71_fails_new",
    "Ecl.Props.C71_fails_empty_write",
    "Ecl.Props.C71_contents_all"
   ],
   "note": "Append always, New when the old contents are not longer; refuted: New does not truncate, and an empty write is reported as an error; for all old contents, exactly what the disk holds."
  },
  {
   "property": "C72",
   "status": "partial",
   "theorems": [
    "Ecl.Props.C72_same_flag_partial",
    "Ecl.Props.C72_open",
    "Ecl.Props.C72_fails_open",
    "Ecl.Props.C72_connect",
    "Ecl.Props.C72_fails_connect",
    "Ecl.Props.C72_hostname",
    "Ecl.Props.C72_fails_hostname",
    "Ecl.Props.C72_fails_labels"
   ],
   "note": "For every errno and thirteen pairs of tables: equal for ten, and the exact set of differences for open, connect and gethostbyname (refuted there)."
  },
  {
   "property": "C73",
   "status": "partial",
   "theorems": [
    "Ecl.Props.C73_exclusion_partial",
    "Ecl.Props.C73_blocks",
    "Ecl.Props.C73_misuse",
    "Ecl.Props.C73_fails_locks"
   ],
   "note": "Refinement to exclusive ownership for every interleaving of returning calls with owners unlocking; misuse characterised; refuted: locks() after a rejected call. Updates of the counter are single steps here; that lock() races for it is C155."
  },
  {
   "property": "C74",
   "status": "partial",
   "theorems": [
    "Ecl.Props.C74_single_partial",
    "Ecl.Props.C74_fails_race",
    "Ecl.Props.C74_fails_create",
    "Ecl.Props.C74_decides",
    "Ecl.Props.C74_fails_any_number"
   ],
   "note": "Every history of undisturbed starts; refuted: two callers at the same time (any number of threads), failed thread creation; for all schedules exactly how many threads run and what isRunning says."
  },
  {
   "property": "C75",
   "status": "partial",
   "theorems": [
    "Ecl.Props.C75_format_partial",
    "Ecl.Props.C75_fails_long",
    "Ecl.Props.C75_fails_precision_sci"
   ],
   "note": "For texts of at most 29 characters and at most 20 decimals, printf being a parameter; refuted: longer texts are cut, more decimals reduced, scientific format missing."
  },
  {
   "property": "C76",
   "status": "proved",
   "theorems": [
    "Ecl.Props.C76_format",
    "Ecl.Props.C76_settings"
   ],
   "note": "Every string up to 10^9 characters, every width from -10^9 up, every alignment, any earlier state."
  },
  {
   "property": "C77",
   "status": "proved",
   "theorems": [
    "Ecl.Props.C77_cube_root",
    "Ecl.Props.C77_norms"
   ],
   "note": "Exact real arithmetic."
  },
  {
   "property": "C78",
   "status": "partial",
   "theorems": [
    "Ecl.Props.C78_intersection_partial",
    "Ecl.Props.C78_refused_iff",
    "Ecl.Props.C78_flag",
    "Ecl.Props.C78_flag_partial",
    "Ecl.Props.C78_fails_flag",
    "Ecl.Props.C78_fails_near_parallel"
   ],
   "note": "The point returned lies on both lines and is the only one; parallel lines refused; lines are refused exactly when their slopes agree up to a factor of 1e-12; refuted: lines of nearly equal slope are refused although they meet, and fail() still reports a failure after a later success. Exact real arithmetic; with rounding, see C148."
  },
  {
   "property": "C79",
   "status": "partial",
   "theorems": [
    "Ecl.Props.C79_quaternion_partial",
    "Ecl.Props.C79_angle_axis",
    "Ecl.Props.C79_fails_angle_axis"
   ],
   "note": "Proved for matrices and quaternions (their rotation matrix); refuted for angle and axis: both arguments are ignored."
  },
  {
   "property": "C80",
   "status": "partial",
   "theorems": [
    "Ecl.Props.C80_x_partial",
    "Ecl.Props.C80_y_zero",
    "Ecl.Props.C80_y_value",
    "Ecl.Props.C80_y_iff",
    "Ecl.Props.C80_fails_y"
   ],
   "note": "The x intercept, unless the major axis is the y axis; the y intercept is refuted (0 for every diagonal matrix with the larger variance in x), its value given and right exactly for equal variances with positive correlation. Exact real arithmetic."
  },
  {
   "property": "C81",
   "status": "partial",
   "theorems": [
    "Ecl.Props.C81_compare_partial",
    "Ecl.Props.C81_equivalence_partial",
    "Ecl.Props.C81_fails_dimension",
    "Ecl.Props.C81_redimension",
    "Ecl.Props.C81_append"
   ],
   "note": "Every pair of waypoints of the same dimension; refuted for different dimensions (prefixes are equal, the reverse comparison fails or is undefined). Appending waypoints to a trajectory is decided (C81_append)."
  },
  {
   "property": "C82",
   "status": "partial",
   "theorems": [
    "Ecl.Props.C82_smooth",
    "Ecl.Props.C82_end_rate",
    "Ecl.Props.C82_rest_partial",
    "Ecl.Props.C82_fails_end_rate",
    "Ecl.Props.C82_outside",
    "Ecl.Props.C82_refused",
    "Ecl.Props.C82_outcomes",
    "Ecl.Props.C82_large_limits",
    "Ecl.Props.C82_fails_returns"
   ],
   "note": "Smoothness, both end positions, start rate, zero end accelerations, the acceleration limit, refusals and the absence of undefined behaviour for every call that returns (exact arithmetic; the outer stretching loop is bounded by a pass count, none = has not returned yet). Refuted: the final rate is at most half of the configured one, and a limit broken at the end stretches the first segment, so that the call need not return."
  },
  {
   "property": "C83",
   "status": "partial",
   "theorems": [
    "Ecl.Props.C83_ends",
    "Ecl.Props.C83_waypoints",
    "Ecl.Props.C83_pieces_partial",
    "Ecl.Props.C83_large_limits_partial",
    "Ecl.Props.C83_fails_acceleration",
    "Ecl.Props.C83_fails_continuous",
    "Ecl.Props.C83_fails_limit",
    "Ecl.Props.C83_outside",
    "Ecl.Props.C83_refused",
    "Ecl.Props.C83_outcomes",
    "Ecl.Props.C83_fails_refused"
   ],
   "note": "Both ends with rates and zero acceleration, the waypoints in between, smoothness and limits of the parts, refusals of a debug build and absence of undefined behaviour for usable waypoints (exact arithmetic; the stretching loops are bounded by a pass count, none = has not returned yet). With large limits the whole is continuously differentiable and keeps the limits. Refuted: the acceleration jumps where the quintic at the start meets the spline; the position jumps if the loop for the end stretches a segment after the quintics at the start were made; the same stretching can make the spline in the middle accelerate beyond the limit; a release build does not refuse two waypoints."
  },
  {
   "property": "C84",
   "status": "partial",
   "theorems": [
    "Ecl.Props.C84_shared_partial",
    "Ecl.Props.C84_fails_shared",
    "Ecl.Props.C84_fails_failed_constructor",
    "Ecl.Props.C84_last_write_partial",
    "Ecl.Props.C84_fails_last_write",
    "Ecl.Props.C84_fails_sizes",
    "Ecl.Props.C84_creation",
    "Ecl.Props.C84_attachment",
    "Ecl.Props.C84_one_creator",
    "Ecl.Props.C84_destruction",
    "Ecl.Props.C84_fails_crash",
    "Ecl.Props.C84_resources_partial",
    "Ecl.Props.C84_fails_resources",
    "Ecl.Props.C84_error_partial",
    "Ecl.Props.C84_fails_error",
    "Ecl.Props.C84_fails_attach"
   ],
   "note": "For every interleaving: one storage while the name is kept; last stored value read by all once the creator is constructed (one storage type); what an undisturbed constructor or destructor does; one creator; no descriptor left. Refuted: later handles get another storage when the creator is destroyed or another constructor fails; a store before the creator's initialisation is lost; a smaller storage type cuts the memory; a crash leaves the name; a failing ftruncate leaves the mapping; the error of mmap can be overwritten by unlink."
  },
  {
   "property": "C85",
   "status": "partial",
   "theorems": [
    "Ecl.Props.C85_float_partial",
    "Ecl.Props.C85_defined",
    "Ecl.Props.C85_fails_truncated",
    "Ecl.Props.C85_fails_terminated",
    "Ecl.Props.C85_fails_precision",
    "Ecl.Props.C85_bool_partial",
    "Ecl.Props.C85_fails_bool"
   ],
   "note": "Proved for every number, precision, buffer and history: the correctly rounded numeral cut off to the buffer less two characters; a boolean in a buffer of six. Refuted: too small a buffer is not reported and the text stands for another number, one character of the buffer is never used; a buffer of one character gets no terminator; precisions above twenty are twenty; booleans are written behind buffers of less than five characters."
  },
  {
   "property": "C86",
   "status": "partial",
   "theorems": [
    "Ecl.Props.C86_resolved",
    "Ecl.Props.C86_error_partial",
    "Ecl.Props.C86_fails_error",
    "Ecl.Props.C86_fails_untouched",
    "Ecl.Props.C86_memory_partial",
    "Ecl.Props.C86_fails_memory",
    "Ecl.Props.C86_fails_nul"
   ],
   "note": "Proved for every path without NUL and every answer: success, and the error for the reason if the system left a C string in the buffer. Refuted: the call is undefined if the buffer was not written; a failed call replaces the caller's string and keeps its buffer; a path with a NUL is resolved up to there."
  },
  {
   "property": "C87",
   "status": "partial",
   "theorems": [
    "Ecl.Props.C87_from_double",
    "Ecl.Props.C87_fails_range",
    "Ecl.Props.C87_range",
    "Ecl.Props.C87_fails_decimal",
    "Ecl.Props.C87_fails_negative",
    "Ecl.Props.C87_to_double",
    "Ecl.Props.C87_round_trip_partial",
    "Ecl.Props.C87_fails_round_trip",
    "Ecl.Props.C87_fails_resolution",
    "Ecl.Props.C87_data",
    "Ecl.Props.C87_average_partial",
    "Ecl.Props.C87_variance_partial",
    "Ecl.Props.C87_deviation_partial",
    "Ecl.Props.C87_fails_empty",
    "Ecl.Props.C87_fails_average"
   ],
   "note": "Proved for every rounding to nearest and every double in range: timestamps from double (fully, with the exact range of defined arguments), to double up to the precision of the type, round trip to within a nanosecond for up to 8000000 s; the statistics in exact arithmetic. Refuted: TimeStamp(3.21) is 3.209999999 s; negative numbers are accepted; values out of range and statistics without data are undefined; the round trip loses nanoseconds; times of day 100 ns apart are one number; the average of one duration can differ from it."
  },
  {
   "property": "C88",
   "status": "partial",
   "theorems": [
    "Ecl.Props.C88_uniform",
    "Ecl.Props.C88_number",
    "Ecl.Props.C88_polar",
    "Ecl.Props.C88_scale",
    "Ecl.Props.C88_reproducible_partial",
    "Ecl.Props.C88_fails_reproducible",
    "Ecl.Props.C88_fails_independent",
    "Ecl.Props.C88_fails_interference",
    "Ecl.Props.C88_fails_uniform_int",
    "Ecl.Props.C88_fails_gaussian_int",
    "Ecl.Props.C88_fails_single"
   ],
   "note": "Proved for every sequence of rand and every rounding to nearest double: the ranges, no NaN in any program, the polar method and the scaling (exact arithmetic), and reproducibility when an even number of gaussian numbers was drawn before. Refuted: the second number of a pair survives a new seed; generators share one stream and reseed each other; for int uniform gives -range or range only and gaussian never returns; for float gaussian can return NaN. The distribution of the numbers is not modelled."
  },
  {
   "property": "C89",
   "status": "partial",
   "theorems": [
    "Ecl.Props.C89_vectors",
    "Ecl.Props.C89_equal",
    "Ecl.Props.C89_distance",
    "Ecl.Props.C89_rotate",
    "Ecl.Props.C89_normalize",
    "Ecl.Props.C89_distance_int_partial",
    "Ecl.Props.C89_fails_triangle_int",
    "Ecl.Props.C89_fails_distance_int",
    "Ecl.Props.C89_fails_normalize_int",
    "Ecl.Props.C89_fails_rotate_int",
    "Ecl.Props.C89_index",
    "Ecl.Props.C89_fails_index",
    "Ecl.Props.C89_homogeneous_partial",
    "Ecl.Props.C89_fails_homogeneous"
   ],
   "note": "Proved for double points in exact arithmetic: vector space laws, metric, rotation, Normalize; equality for every coordinate type; indices in debug builds. For int points the distance is the true one cut off, for coordinates less than 32768 apart. Refuted for int: the triangle inequality, distances over 46340 (undefined), Normalize of (3,4) gives the origin, rotating (1,0) by pi/4 gives the origin. Refuted in release builds: refusal of indices and of a fourth coordinate other than 1; in every build the fourth coordinate can be overwritten."
  },
  {
   "property": "C90",
   "status": "partial",
   "theorems": [
    "Ecl.Props.C90_wrap_partial",
    "Ecl.Props.C90_fails_wrap",
    "Ecl.Props.C90_fails_program",
    "Ecl.Props.C90_short_usage_partial",
    "Ecl.Props.C90_usage_text",
    "Ecl.Props.C90_shown",
    "Ecl.Props.C90_fails_empty_group",
    "Ecl.Props.C90_short",
    "Ecl.Props.C90_long",
    "Ecl.Props.C90_fails_multi_switch",
    "Ecl.Props.C90_fails_optional",
    "Ecl.Props.C90_long_unlabeled",
    "Ecl.Props.C90_constraint",
    "Ecl.Props.C90_docbook",
    "Ecl.Props.C90_fails_docbook",
    "Ecl.Props.C90_fails_substitute",
    "Ecl.Props.C90_fails_or",
    "Ecl.Props.C90_or_partial",
    "Ecl.Props.C90_repeat_partial",
    "Ecl.Props.C90_fails_repeat"
   ],
   "note": "Proved: the layout of every text that does not begin with a word longer than the line, termination, the usage line with each argument once, spellings shown are accepted by the parser, escaping of angle brackets. Refuted: a text (such as the path of the program) that begins with an overlong word is read before its beginning; an empty exclusive group leaves an unopened brace; a counting switch is shown with a value that the parser refuses, and as not repeatable in DocBook; optional unlabeled arguments look required; DocBook does not escape the ampersand, loses brackets and puts OR in the wrong places; replacing a character by a text holding it never ends. The frame of the texts (titles, blank lines) is the subject of C129."
  },
  {
   "property": "C91",
   "status": "partial",
   "theorems": [
    "Ecl.Props.C91_interpolator",
    "Ecl.Props.C91_plane",
    "Ecl.Props.C91_sliding",
    "Ecl.Props.C91_planar_partial",
    "Ecl.Props.C91_planar_iff",
    "Ecl.Props.C91_fails_tilted",
    "Ecl.Props.C91_fails_height"
   ],
   "note": "Proved: end points and constant velocity for every group with an exponential and a logarithm of the relative frame (both shown to exist for the whole plane), the straight line of the sliding interpolator, the planar interpolator decided for every pair of frames and build (refused, reached or not reached). Refuted: tilted frames are never refused by the planar interpolator and not reached; in release builds neither is a different height. Exact arithmetic."
  },
  {
   "property": "C92",
   "status": "partial",
   "theorems": [
    "Ecl.Props.C92_pose_round_trip",
    "Ecl.Props.C92_frame_round_trip_partial",
    "Ecl.Props.C92_fails_frame_round_trip",
    "Ecl.Props.C92_concatenate",
    "Ecl.Props.C92_line",
    "Ecl.Props.C92_quaternion",
    "Ecl.Props.C92_fails_quaternion",
    "Ecl.Props.C92_yaw",
    "Ecl.Props.C92_fails_yaw_check",
    "Ecl.Props.C92_yaw_check"
   ],
   "note": "Proved: round trip of poses, frames that survive the way back are exactly the planar ones, composition, line frames, the quaternion up to its sign, yaw round trip. Refuted: the height is lost without notice, the two ways to get a quaternion do not agree, a half turn around the x axis passes the check of quaternion2yaw as yaw 0; which quaternions it accepts wrongly is decided (C92_yaw_check). Exact arithmetic."
  },
  {
   "property": "C93",
   "status": "partial",
   "theorems": [
    "Ecl.Props.C93_delivery_partial",
    "Ecl.Props.C93_fails_one_shot",
    "Ecl.Props.C93_fails_suicide",
    "Ecl.Props.C93_fails_emitter",
    "Ecl.Props.C93_fails_reconnect",
    "Ecl.Props.C93_ends",
    "Ecl.Props.C93_ends_unless_constructing",
    "Ecl.Props.C93_fails_endless"
   ],
   "note": "Proved, for nested emissions and relays too, of programs that disconnect or destroy no endpoint while it is called or emitting. Refuted otherwise: a slot that disconnects itself (one-shot), or the signal that calls it, leaves an invalid iterator; a slot that destroys its own last handle waits for itself. The delivery is proved to end if boundedly many endpoints and topics are used (in particular if the functions construct none) and whatever is called or emitted ranks below its caller; refuted otherwise: slots that construct and subscribe further slots keep the emission going for ever. One thread; addresses are not reused."
  },
  {
   "property": "C94",
   "status": "partial",
   "theorems": [
    "Ecl.Props.C94_barrier_partial",
    "Ecl.Props.C94_fails_overlap",
    "Ecl.Props.C94_fails_lost_count",
    "Ecl.Props.C94_fails_gap",
    "Ecl.Props.C94_fails_late",
    "Ecl.Props.C94_fails_destroys_locked"
   ],
   "note": "Proved when calls of different threads do not overlap and the destructor does not begin between the begin of a call and its trylock. Refuted otherwise, each with a schedule for any two threads: overlapping calls unlock a mutex held by another thread; simultaneous calls lose a count and the slot is destroyed under a running function, even if the accesses to the count never meet; a call that has begun but not got to the mutex is not waited for. Proved of all schedules: the destructor destroys a locked mutex, undefined by POSIX."
  },
  {
   "property": "C95",
   "status": "partial",
   "theorems": [
    "Ecl.Props.C95_exclusion",
    "Ecl.Props.C95_trylock_partial",
    "Ecl.Props.C95_fails_trylock_waits"
   ],
   "note": "Exclusion and ownership are proved for all schedules. That trylock never waits is proved when no other call is going on, and refuted otherwise: two simultaneous calls both see the count at 0, and the second waits for as long as the first holds the mutex."
  },
  {
   "property": "C96",
   "status": "partial",
   "theorems": [
    "Ecl.Props.C96_priority_partial",
    "Ecl.Props.C96_fails_realtime",
    "Ecl.Props.C96_fails_default",
    "Ecl.Props.C96_start_level_partial",
    "Ecl.Props.C96_fails_start_throws",
    "Ecl.Props.C96_fails_critical",
    "Ecl.Props.C96_start_throws",
    "Ecl.Props.C96_fails_is_running",
    "Ecl.Props.C96_fails_cancel",
    "Ecl.Props.C96_life_partial",
    "Ecl.Props.C96_one_at_a_time",
    "Ecl.Props.C96_refused",
    "Ecl.Props.C96_start_refused"
   ],
   "note": "Proved: levels other than default read back, the real time ones as the first of them; threads started high, low, background or real time run at that level; histories that cancel no running thread have no undefined behaviour and delete nothing twice; one thread per object at a time. Refuted: the real time levels are not told apart; default cannot be set; in debug builds a start with the default or normal priority throws though the thread runs; a thread started critical runs at normal; isRunning is true of threads that ended or were never created; cancelling a running thread deletes its function object under it. Decided which starts throw (C96_start_throws)."
  },
  {
   "property": "C97",
   "status": "partial",
   "theorems": [
    "Ecl.Props.C97_on_disk",
    "Ecl.Props.C97_contents_partial",
    "Ecl.Props.C97_fails_newline",
    "Ecl.Props.C97_fails_new"
   ],
   "note": "Proved for bytes without 10 and, in mode New, at least as many as the old file has. The contents are characterised for all bytes: each 10 becomes 13, 10 on disk. Refuted: any data with a byte 10; a longer old file keeps its rest."
  },
  {
   "property": "C98",
   "status": "partial",
   "theorems": [
    "Ecl.Props.C98_fails_constructor",
    "Ecl.Props.C98_fails_debug",
    "Ecl.Props.C98_fails_leak",
    "Ecl.Props.C98_fails_close_waits",
    "Ecl.Props.C98_close_partial",
    "Ecl.Props.C98_fails_silent",
    "Ecl.Props.C98_open_clears",
    "Ecl.Props.C98_read_partial"
   ],
   "note": "Proved for release builds: reads return what came in while the port is open without error; close returns after one more byte. Refuted: the constructor with a port reads an indeterminate member; in debug builds no port is ever open; in every history the handle is never given back, so that a port opens once at most; close waits as long as no byte comes in; after an error of the port reads return nothing and report nothing."
  },
  {
   "property": "C99",
   "status": "partial",
   "theorems": [
    "Ecl.Props.C99_now",
    "Ecl.Props.C99_elapsed_partial",
    "Ecl.Props.C99_fails_restart",
    "Ecl.Props.C99_fails_split",
    "Ecl.Props.C99_sleep_constructor",
    "Ecl.Props.C99_sleep_calls_partial",
    "Ecl.Props.C99_fails_micro_wraps",
    "Ecl.Props.C99_micro"
   ],
   "note": "Proved: time stamps; elapsed time of watches that are not restarted; the constructors of all sleepers; all calls for seconds and milliseconds, and those below a second for microseconds and nanoseconds. Refuted: restart has no effect after any history; split always returns 0; a call for 4.29 s in microseconds asks for 704 ns."
  },
  {
   "property": "C100",
   "status": "partial",
   "theorems": [
    "Ecl.Props.C100_value",
    "Ecl.Props.C100_copy",
    "Ecl.Props.C100_reference",
    "Ecl.Props.C100_direct",
    "Ecl.Props.C100_fails_temporary"
   ],
   "note": "Proved for all kinds and all histories. Refuted: a function with a parameter by constant reference that is bound to a value gives an object that refers to a temporary; no call of it is defined. That PartiallyBoundUnaryMemberFunction, BoundUnaryMemberFunction and PartiallyBoundBinaryMemberFunction do not compile for results other than void is not expressed."
  },
  {
   "property": "C101",
   "status": "partial",
   "theorems": [
    "Ecl.Props.C101_history_partial",
    "Ecl.Props.C101_fails_two_temporaries",
    "Ecl.Props.C101_fails_precision_while_waiting",
    "Ecl.Props.C101_fails_stale_settings",
    "Ecl.Props.C101_fails_empty",
    "Ecl.Props.C101_fails_nothing",
    "Ecl.Props.C101_fails_twice",
    "Ecl.Props.C101_fails_negative_zero"
   ],
   "note": "Proved for debug builds and sequences in which a container with temporary settings is streamed before anything but width is called. Refuted: two containers with temporary settings before streaming lose the permanent precision; a precision set while temporary settings wait is lost; a container without settings inherits the ones that wait; an empty container without a width reads an element that does not exist; a negative zero breaks the alignment; in release builds streaming nothing is undefined and streaming again shows the container again."
  },
  {
   "property": "C102",
   "status": "partial",
   "theorems": [
    "Ecl.Props.C102_matrices_partial",
    "Ecl.Props.C102_fails_stale_settings",
    "Ecl.Props.C102_fails_columns",
    "Ecl.Props.C102_bytes_partial",
    "Ecl.Props.C102_fails_twice",
    "Ecl.Props.C102_fails_nothing"
   ],
   "note": "Matrices: proved for both builds, except that a matrix without settings given while one with temporary settings waits is shown with those (refuted); with the default width columns are not aligned (refuted). Bytes: streaming again after the bytes were shown is not noticed although the code announces an error for it (refuted); in a release build streaming nothing is undefined (refuted)."
  },
  {
   "property": "C103",
   "status": "partial",
   "theorems": [
    "Ecl.Props.C103_serial",
    "Ecl.Props.C103_socket",
    "Ecl.Props.C103_fails_nul",
    "Ecl.Props.C103_fails_hex_line",
    "Ecl.Props.C103_hex_partial",
    "Ecl.Props.C103_fails_hex_long"
   ],
   "note": "Serial and sockets: proved for every input without a null character; what follows a null character on its line is dropped (refuted). Hexadecimal: every complete line is refused because its end is kept in the buffer (refuted), so it works only for a last line that the end of the input closes (proved), of fewer than 80 characters (longer ones refuted). Writing to the device is taken to succeed. That the writer of hex.cpp starts its thread before its converter is constructed is the subject of C137."
  },
  {
   "property": "C104",
   "status": "partial",
   "theorems": [
    "Ecl.Props.C104_serial_partial",
    "Ecl.Props.C104_hex_partial",
    "Ecl.Props.C104_fails_serial",
    "Ecl.Props.C104_sockets",
    "Ecl.Props.C104_timed_partial",
    "Ecl.Props.C104_fails_empty_line",
    "Ecl.Props.C104_fails_stale_time",
    "Ecl.Props.C104_hang_up",
    "Ecl.Props.C104_fails_reset"
   ],
   "note": "Serial: proved as long as no read fails; a failed read ends a debug build by an uncaught exception and is undefined in a release build (refuted). Sockets: text without time stamps and the end by a hang-up are proved; with time stamps only if no line is empty, a line after an empty one gets none (refuted); in hexadecimal a byte may be shown with the time of an earlier one (refuted); a reset connection ends a debug build of the server by an uncaught exception (refuted)."
  },
  {
   "property": "C105",
   "status": "partial",
   "theorems": [
    "Ecl.Props.C105_client",
    "Ecl.Props.C105_client_partial",
    "Ecl.Props.C105_fails_client_stale",
    "Ecl.Props.C105_fails_unopened",
    "Ecl.Props.C105_fails_bind",
    "Ecl.Props.C105_fails_accepted",
    "Ecl.Props.C105_server_partial",
    "Ecl.Props.C105_serial",
    "Ecl.Props.C105_serial_partial",
    "Ecl.Props.C105_fails_locked",
    "Ecl.Props.C105_fails_serial_indeterminate",
    "Ecl.Props.C105_file_partial",
    "Ecl.Props.C105_fails_reopen",
    "Ecl.Props.C105_fails_file_open",
    "Ecl.Props.C105_fails_close"
   ],
   "note": "Client: one or no descriptor proved for every history; others are left alone if it is not closed twice, but its destructor always closes again (refuted after a hang-up; undefined if never opened). Server: proved while no client is accepted; accepted descriptors are never closed, and a failed bind leaves the server saying that it is open (refuted). Serial: never closes a descriptor of others (proved); holds one or none unless opening fails after the descriptor was got, which leaks it (refuted); unless the memory is zero before, opening looks at members without a value (refuted). File: proved if opened only when closed and fdopen and fclose succeed; refuted otherwise. Builds with ECL_DISABLE_EXCEPTIONS do not compile (serial_pos.cpp:63 uses the exception class they leave out)."
  },
  {
   "property": "C106",
   "status": "partial",
   "theorems": [
    "Ecl.Props.C106_integers",
    "Ecl.Props.C106_floats",
    "Ecl.Props.C106_characters",
    "Ecl.Props.C106_fails_word",
    "Ecl.Props.C106_fails_kept",
    "Ecl.Props.C106_fails_pause",
    "Ecl.Props.C106_fails_pause_float",
    "Ecl.Props.C106_integer_partial",
    "Ecl.Props.C106_float_partial",
    "Ecl.Props.C106_word_partial",
    "Ecl.Props.C106_fails_chain",
    "Ecl.Props.C106_fails_output",
    "Ecl.Props.C106_output_partial",
    "Ecl.Props.C106_bool_kept",
    "Ecl.Props.C106_bool_partial",
    "Ecl.Props.C106_fails_bool",
    "Ecl.Props.C106_fails_bool_cut",
    "Ecl.Props.C106_closed",
    "Ecl.Props.C106_closed_release"
   ],
   "note": "Characters, integers and floating point numbers: a failed read is always reported (proved); the variable is kept, except that a hexadecimal number zeroes it (refuted). Words: a failure within the word is not reported (refuted). A pause within a number ends it silently (refuted); what comes after the text of a value does not matter (proved). The next extraction forgets an error (refuted). Output: release builds never report a failure (refuted); debug builds do unless the device takes only part of a text. Boolean values: the variable is kept on errors (proved), but a failure within the text is not reported (refuted). A device that is not open: debug builds throw without reading, release builds report the first failed read (proved)."
  },
  {
   "property": "C107",
   "status": "partial",
   "theorems": [
    "Ecl.Props.C107_sharing_partial",
    "Ecl.Props.C107_no_deletion_race",
    "Ecl.Props.C107_no_race_partial",
    "Ecl.Props.C107_fails_race_open",
    "Ecl.Props.C107_fails_race_flush",
    "Ecl.Props.C107_fails_race_count",
    "Ecl.Props.C107_fails_failed_open"
   ],
   "note": "For all schedules in which the system opens and writes the files: nothing undefined, each file open once and exactly as long as needed, count exact when no call is running, the mutex always given back, no race on the map and no object deleted under another thread; no race at all between threads that share no file. Refuted: races on the error flag (two opens, two flushes of one file) and on the count; after one failed open no other thread can ever open or close a shared file. The manager's Mutex is taken as free of races; that its counter is not is C155."
  },
  {
   "property": "C108",
   "status": "partial",
   "theorems": [
    "Ecl.Props.C108_lines_partial",
    "Ecl.Props.C108_fails_long_line",
    "Ecl.Props.C108_fails_exact_line"
   ],
   "note": "For lines shorter than the 4096 byte buffer: every interleaving gives a file of whole lines, those of each stream complete and in order, and no call fails. Refuted for longer lines, which are torn apart by lines of other streams, and for lines of exactly 4096 bytes, after which endl reports an error although everything was written. Whole calls interleave (accesses within calls: C107)."
  },
  {
   "property": "C109",
   "status": "partial",
   "theorems": [
    "Ecl.Props.C109_double",
    "Ecl.Props.C109_class",
    "Ecl.Props.C109_single_partial",
    "Ecl.Props.C109_fails_single",
    "Ecl.Props.C109_fails_single_class",
    "Ecl.Props.C109_units"
   ],
   "note": "double: range (-pi, pi), idempotent, direction within (|a|+6)/2^52, operators agree with their assigning forms and are within 2^-47, all for every rounding to nearest. float: between the floats nearest to -pi and pi, direction within (|a|+6)/2^23. Refuted for float: the float nearest to pi is wrapped to a value below -pi and back to one above pi if wrapped again, so that a + b and a += b differ for Angle<float>. Here the exponent has no limits; C133 adds subnormal numbers, C130 NaN and infinities."
  },
  {
   "property": "C110",
   "status": "partial",
   "theorems": [
    "Ecl.Props.C110_count_partial",
    "Ecl.Props.C110_between",
    "Ecl.Props.C110_error",
    "Ecl.Props.C110_fails_count",
    "Ecl.Props.C110_fails_mean"
   ],
   "note": "For every precision p: count exact up to 2^p values; mean within the range of the data, variance not negative, equal values give exactly their value and 0, all for any number of values; up to 2^p/100 values of size at most M the mean is off by at most M(n+11)/2^(p+1), the variance by M^2(6n+84)/2^p. Refuted beyond that: the counter has the type of the data and stops at 2^p (16777216 for float) under the default rounding; after 2^p ones and half as many zeros the mean is 1/2 instead of 2/3. Overflow and subnormal numbers are not modelled; NaN and infinities are in C130."
  },
  {
   "property": "C111",
   "status": "partial",
   "theorems": [
    "Ecl.Props.C111_fraction_partial",
    "Ecl.Props.C111_integer",
    "Ecl.Props.C111_fails_double",
    "Ecl.Props.C111_fails_float"
   ],
   "note": "Proved for float and double alike: no error, the text behind the number is left, and the value is off by at most (3i+2q)(v+1)/2^p + 6/2^24 for i and q digits; integers up to 2^p are exact. Refuted: the multiplier of the fraction digits is a float also for doubles, so 0.1 read into a double is wrong by more than 10^-9; 0.9 read into a float is not the nearest float. Missing: numbers at the very end of the input (refuted in C46). C133 shows that overflow and underflow cannot happen."
  },
  {
   "property": "C112",
   "status": "partial",
   "theorems": [
    "Ecl.Props.C112_hexadecimal",
    "Ecl.Props.C112_exclusive_partial",
    "Ecl.Props.C112_separate",
    "Ecl.Props.C112_fails_read",
    "Ecl.Props.C112_fails_format"
   ],
   "note": "Proved as long as no two threads are in calls of the same instantiation (device and number type) at once, in particular for all schedules if each instantiation belongs to one thread: no data race, and each call gives what it gives alone. Refuted without this: the functions keep their digits and texts in static arrays, so a thread reading 12 may get 34 from another thread's stream, and a thread formatting 7 may write 8. The hexadecimal and decimal arrays are separate: threads that write only one kind each do not meet (C112_hexadecimal). Interleaving is sequentially consistent; scientific formatting is not included."
  },
  {
   "property": "C113",
   "status": "partial",
   "theorems": [
    "Ecl.Props.C113_apart_partial",
    "Ecl.Props.C113_no_new_error",
    "Ecl.Props.C113_alone",
    "Ecl.Props.C113_fails_delimiter",
    "Ecl.Props.C113_fails_ignore",
    "Ecl.Props.C113_fails_optional"
   ],
   "note": "Proved for every order of operations as long as no command line meets what another left in the static variables: unlabeled arguments are not declared after an optional unlabeled one of another command line, a command line is parsed while the one made last has its delimiter, and no other was told before to ignore the rest. C113_alone ties the single command line to the model of C48, C49 and C50. Refuted without these conditions: a delimiter set by a later object makes parsing fail; after -- on one command line another ignores all its arguments without an error; after an optional unlabeled argument of one, no other may have unlabeled arguments. An argument object added to two command lines is not modelled."
  },
  {
   "property": "C114",
   "status": "partial",
   "theorems": [
    "Ecl.Props.C114_value",
    "Ecl.Props.C114_derivatives",
    "Ecl.Props.C114_integers",
    "Ecl.Props.C114_linear",
    "Ecl.Props.C114_residual",
    "Ecl.Props.C114_count_partial",
    "Ecl.Props.C114_larger_root_partial",
    "Ecl.Props.C114_fails_value",
    "Ecl.Props.C114_fails_small_root",
    "Ecl.Props.C114_fails_count"
   ],
   "note": "Proved for every degree: error bounds of the value and both derivatives relative to the sum of absolute terms, exactness for integers below 2^53, the linear root, the residual at every returned root of a quadratic, the number of roots unless the discriminant is below 3 (b^2 + 4|ac|) / 2^53, and the root of larger absolute value if a and c have opposite signs. Refuted: (x-1)^2 at 1 + 2^-30 evaluates to 0; x^2 + 2^28 x + 1/2 gets the root 0; a quadratic with two roots 2 apart gets only one. Fused operations are not modelled; for cubic roots with rounding see C149, for overflow and underflow see C133."
  },
  {
   "property": "C115",
   "status": "partial",
   "theorems": [
    "Ecl.Props.C115_client",
    "Ecl.Props.C115_client_error",
    "Ecl.Props.C115_file_partial",
    "Ecl.Props.C115_file_told",
    "Ecl.Props.C115_fails_reopened_file",
    "Ecl.Props.C115_serial_partial",
    "Ecl.Props.C115_serial_present",
    "Ecl.Props.C115_fails_stop_bits",
    "Ecl.Props.C115_server_partial",
    "Ecl.Props.C115_fails_server",
    "Ecl.Props.C115_shared_partial",
    "Ecl.Props.C115_fails_shared",
    "Ecl.Props.C115_streams",
    "Ecl.Props.C115_shared_stream_partial",
    "Ecl.Props.C115_fails_shared_stream",
    "Ecl.Props.C115_fails_serial_stream",
    "Ecl.Props.C115_memory_partial",
    "Ecl.Props.C115_fails_memory"
   ],
   "note": "Proved for both builds: socket clients fully; files that were closed before; the result for servers and serial ports; streams on files, connections and serial ports. Refuted: after a failed second open a file still says it is open and writes into the old file; a server says it is open after bind failed; the builds differ after a refusal of stop bits; without exceptions a shared file that cannot be opened is reported as opened, for ever, and its stream does not fail; without exceptions shared memory that does not exist is handed out. SocketServerStream names StandardException outside the macros, so it exists only with exceptions; the mutex of the shared files is in C25 and C107."
  },
  {
   "property": "C116",
   "status": "partial",
   "theorems": [
    "Ecl.Props.C116_path",
    "Ecl.Props.C116_single",
    "Ecl.Props.C116_poses",
    "Ecl.Props.C116_vertex",
    "Ecl.Props.C116_fails_on_segment",
    "Ecl.Props.C116_fails_at_end"
   ],
   "note": "Proved: error at most 64*M/2^53 for coordinates up to M, whatever the trajectory; relative error 6/2^24 for one pose and for pairs of poses, which are at distance zero exactly when they agree; exactly zero at every vertex but the last. Refuted: zero on the segment ((1,0) on the segment to (49,0)), zero at the last vertex. For overflow and underflow see C133."
  },
  {
   "property": "C117",
   "status": "partial",
   "theorems": [
    "Ecl.Props.C117_serial_partial",
    "Ecl.Props.C117_threads_partial",
    "Ecl.Props.C117_sequence",
    "Ecl.Props.C117_finishes",
    "Ecl.Props.C117_connect_fails",
    "Ecl.Props.C117_subscribe_fails",
    "Ecl.Props.C117_copy_fails"
   ],
   "note": "Proved for calls that overlap only if they are made on different endpoints, at most one of them changes connections, that one is concerned with topics of its own, and no slot is called by both: no race, and results and tables are those of the calls made one after the other in the order in which they began. Refuted without: two connects on different topics lose a topic, and a later disconnect has undefined behaviour; subscribing while emitting is a race; copies of handles are lost and the endpoint deleted too early. Endpoints alone with themselves on a topic are excluded as in C30."
  },
  {
   "property": "C118",
   "status": "partial",
   "theorems": [
    "Ecl.Props.C118_text_partial",
    "Ecl.Props.C118_values_partial",
    "Ecl.Props.C118_character",
    "Ecl.Props.C118_fails_chars",
    "Ecl.Props.C118_fails_clear",
    "Ecl.Props.C118_fails_limits",
    "Ecl.Props.C118_fails_real_end"
   ],
   "note": "Proved for integers below 10*(maximum/10), words, booleans and real numbers below 10^19 (which come back with six decimals), each followed by a blank. Refuted without: 258 single characters, or two after clear(), overflow the buffer; the largest value of every integral type does not read back; a real number at the end of the text loses its last digit. C118_character: reading a character skips blanks, and with nothing else left the variable holds the last blank. Rounding while a real number is read is the subject of C111."
  },
  {
   "property": "C119",
   "status": "partial",
   "theorems": [
    "Ecl.Props.C119_matrix",
    "Ecl.Props.C119_matrix_heading",
    "Ecl.Props.C119_angle_double",
    "Ecl.Props.C119_angle_single",
    "Ecl.Props.C119_fails_rotation"
   ],
   "note": "Rotation matrix: 5 units per motion for each entry, 8 for the position, 12 for the heading; stored heading: 32 and 33 units (the wrapping of each sum is included). Refuted for the exact claim: the matrix stored for an angle that is not a quarter turn is not a rotation, in any precision, so lengths are not preserved. Overflow, subnormal numbers and fused operations are not modelled; a motion of the pose that stores its heading turns by at most 3.15."
  },
  {
   "property": "C120",
   "status": "partial",
   "theorems": [
    "Ecl.Props.C120_accepted",
    "Ecl.Props.C120_labelled",
    "Ecl.Props.C120_fails_description"
   ],
   "note": "Decided for all programs: C120_accepted gives the exact condition, and for arguments with labels it is the stated one (C120_labelled). Refuted for arguments without labels: they are also rejected if their description is the one the help shows for an earlier argument, so the order of declarations and whether the earlier one is required decide. One command line per process (several are in C113)."
  },
  {
   "property": "C121",
   "status": "partial",
   "theorems": [
    "Ecl.Props.C121_history_partial",
    "Ecl.Props.C121_read_back",
    "Ecl.Props.C121_untouched",
    "Ecl.Props.C121_fails_long",
    "Ecl.Props.C121_fails_error"
   ],
   "note": "Every covered history behaves as a buffer of numbers; a number of up to 32 bits is read back after any further calls outside of its field, and calls change no other field. Refuted: 64 bit fields can be written but not read (undefined), and error() keeps reporting an old failure, or in a debug build does not report one of a reader."
  },
  {
   "property": "C122",
   "status": "partial",
   "theorems": [
    "Ecl.Props.C122_update",
    "Ecl.Props.C122_rates_partial",
    "Ecl.Props.C122_fails_relative",
    "Ecl.Props.C122_straight",
    "Ecl.Props.C122_spot",
    "Ecl.Props.C122_round_trip_partial",
    "Ecl.Props.C122_dead_reckoning",
    "Ecl.Props.C122_between_partial"
   ],
   "note": "The wheel rates have the stated accuracy relative to the sum of the speeds (C122_rates_partial, C122_round_trip_partial), not relative to each rate: C122_fails_relative. C122_between_partial requires the heading of the first pose to be within half a turn (otherwise it is wrapped first), and says nothing about the sign when the motion is almost exactly to the side. Overflow, underflow and NaN are not modelled."
  },
  {
   "property": "C123",
   "status": "partial",
   "theorems": [
    "Ecl.Props.C123_emission",
    "Ecl.Props.C123_stuck",
    "Ecl.Props.C123_fails_destroy"
   ],
   "note": "Proved for legal histories (as in C29/C30): what an emission calls, what it leaves behind, and which calls never end (C123_stuck is an exact decision). False in the code: process neither counts down nor unlocks when the function throws, so the destructor of the endpoint waits for ever (C123_fails_destroy). One thread; the functions do not change connections."
  },
  {
   "property": "C124",
   "status": "partial",
   "theorems": [
    "Ecl.Props.C124_shift",
    "Ecl.Props.C124_linear_partial",
    "Ecl.Props.C124_point_slope_partial",
    "Ecl.Props.C124_cubic_slopes_partial",
    "Ecl.Props.C124_cubic_curvatures_partial",
    "Ecl.Props.C124_quintic_partial",
    "Ecl.Props.C124_start",
    "Ecl.Props.C124_fails_far"
   ],
   "note": "That the interpolation conditions are met up to rounding of the data, wherever the interval lies, is false: C124_fails_far gives a cubic step from 0 to 1 on [2^30, 2^30+1] whose value at the right end is 0. The _partial theorems carry the factor r^n, r being the ratio of the distance to the origin and the length of the interval. Overflow, underflow and NaN are not modelled; the two ends must differ."
  },
  {
   "property": "C125",
   "status": "partial",
   "theorems": [
    "Ecl.Props.C125_arrays_partial",
    "Ecl.Props.C125_fails_spoiled",
    "Ecl.Props.C125_fails_resize",
    "Ecl.Props.C125_fails_copy",
    "Ecl.Props.C125_text_partial",
    "Ecl.Props.C125_fails_clear",
    "Ecl.Props.C125_signal_partial",
    "Ecl.Props.C125_fails_signal",
    "Ecl.Props.C125_slot",
    "Ecl.Props.C125_fails_slot"
   ],
   "note": "False as a whole. resize and operator= of an array with storage free the block before asking for the new one: C125_fails_resize, C125_fails_spoiled (every use but size(), destruction included, is then undefined). A copy constructor stopped by an element's exception loses its block: C125_fails_copy. clear() of the text device leaves it undefined to use or destroy: C125_fails_clear. A slot's connect notes the subscription first, so a second try does nothing and disconnecting may be undefined: C125_slot (decides at which step a retry works), C125_fails_slot. A signal's connect can be retried (C125_signal_partial), but if it is not the topic keeps the publisher: C125_fails_signal. C125_arrays_partial covers all histories in which arrays spoiled that way are left alone, with the exact number of blocks in memory. Threads, shared files and the arrays with memory checks are not considered."
  },
  {
   "property": "C126",
   "status": "partial",
   "theorems": [
    "Ecl.Props.C126_natural_partial",
    "Ecl.Props.C126_clamped_partial",
    "Ecl.Props.C126_heuristic_partial",
    "Ecl.Props.C126_fails_far"
   ],
   "note": "That the spline passes through its points up to rounding of the data, wherever they lie, is false: C126_fails_far gives a heuristic spline on [2^30, 2^30+1] whose value at the right end is 0 instead of 1. The _partial theorems carry the factor r^n, r being the ratio of the distance to the origin and the length of the interval (the polynomials are stored around the origin). Overflow, underflow and NaN are not modelled."
  },
  {
   "property": "C127",
   "status": "partial",
   "theorems": [
    "Ecl.Props.C127_stopwatch_partial",
    "Ecl.Props.C127_stopwatch_new_partial",
    "Ecl.Props.C127_stopwatch_release_partial",
    "Ecl.Props.C127_fails_release",
    "Ecl.Props.C127_fails_restart",
    "Ecl.Props.C127_fails_cpu_silent",
    "Ecl.Props.C127_fails_cpu_new",
    "Ecl.Props.C127_snooze_partial",
    "Ecl.Props.C127_fails_snooze",
    "Ecl.Props.C127_monitor_partial",
    "Ecl.Props.C127_fails_monitor",
    "Ecl.Props.C127_sleep_partial",
    "Ecl.Props.C127_fails_sleep",
    "Ecl.Props.C127_fails_sleep_long"
   ],
   "note": "Proved in debug builds for the stop watch (every history), for monitors whose failing calls are requests for reports, and for sleeps; for snoozes whose clock answers until they have found their time. Refuted otherwise: in release builds elapsed() of a stop watch with a failing clock reads an indeterminate time (undefined), a failing restart silently keeps the old start and interrupted sleeps return as if complete; in all builds CpuWatch ignores the failure and goes on with the last reading, or with an indeterminate one when it fails at construction, and a snooze whose clock fails compares with an indeterminate time; in debug builds a monitor counts the updates that threw. Assumed: a failing clock_gettime leaves the timespec as it was; monitors are constructed while the clock works."
  },
  {
   "property": "C128",
   "status": "partial",
   "theorems": [
    "Ecl.Props.C128_same",
    "Ecl.Props.C128_names_partial",
    "Ecl.Props.C128_printed_partial",
    "Ecl.Props.C128_what_partial",
    "Ecl.Props.C128_fails_what",
    "Ecl.Props.C128_fails_undefined",
    "Ecl.Props.C128_fails_starred",
    "Ecl.Props.C128_fails_unlabeled"
   ],
   "note": "Proved with three reservations that are refuted in full: a stray word `undefined` is reported without its name, since that text stands for a missing name (C128_fails_undefined); a word like -vq is reported with the letters of known switches replaced by stars, so the word named is not on the line (C128_fails_starred); unlabeled arguments are named as options --name which do not exist (C128_fails_unlabeled). what() keeps its text in a static string, so a text kept beyond the next call of what() is lost (C128_fails_what). What is printed after the two lines and the exit status are the subject of C129. Not covered: flags that are stars."
  },
  {
   "property": "C129",
   "status": "partial",
   "theorems": [
    "Ecl.Props.C129_usage",
    "Ecl.Props.C129_once",
    "Ecl.Props.C129_help_partial",
    "Ecl.Props.C129_version_partial",
    "Ecl.Props.C129_status",
    "Ecl.Props.C129_rejected_partial",
    "Ecl.Props.C129_rejected_bare_partial",
    "Ecl.Props.C129_fails_name",
    "Ecl.Props.C129_fails_hint",
    "Ecl.Props.C129_fails_streams"
   ],
   "note": "C129_usage decides the help for all programs: it is the document described by helpDoc, or undefined if one of its texts begins with a word longer than the line. Refuted: with a name (path) of 73 characters or more without a break, help and rejections are undefined (C129_fails_name); the hint to --help does not work if the delimiter is a letter of it (C129_fails_hint); without --help the explanation of a rejection goes to the standard output (C129_fails_streams). Help and version are proved for lines that begin with them. A process started without any word, not even its name, is undefined in the model (line 372 makes a string of a null pointer). The interleaving of the two streams is not modelled."
  },
  {
   "property": "C130",
   "status": "partial",
   "theorems": [
    "Ecl.Props.C130_angle_value_partial",
    "Ecl.Props.C130_fails_scale",
    "Ecl.Props.C130_sign",
    "Ecl.Props.C130_cube_root",
    "Ecl.Props.C130_norms",
    "Ecl.Props.C130_approx_partial",
    "Ecl.Props.C130_approx_infinities",
    "Ecl.Props.C130_fails_infinities",
    "Ecl.Props.C130_approx_integer",
    "Ecl.Props.C130_wrap",
    "Ecl.Props.C130_angle_numbers",
    "Ecl.Props.C130_angle",
    "Ecl.Props.C130_statistics",
    "Ecl.Props.C130_fails_mean",
    "Ecl.Props.C130_fails_variance",
    "Ecl.Props.C130_distance",
    "Ecl.Props.C130_distance_single",
    "Ecl.Props.C130_fails_distance"
   ],
   "note": "Decided for all values: signs, cube roots, norms, isApprox with a precision that is a number, angles after all histories, statistics after all histories, distances to all trajectories. Refuted: with the default precision plus and minus infinity are approximately equal, and neither is approximately equal to itself (C130_fails_infinities); the mean of an infinity and a number depends on their order (C130_fails_mean); the variance of a single NaN is 0 (C130_fails_variance); a position that is NaN is infinitely far from a trajectory, and legs with an end that is not a number are left out unnoticed (C130_fails_distance). The value of an angle after a history is the plain one up to full turns if it is scaled by whole factors only (C130_angle_value_partial, C130_fails_scale). Arithmetic on numbers is exact (no rounding, no overflow) and the two zeros are one number."
  },
  {
   "property": "C131",
   "status": "partial",
   "theorems": [
    "Ecl.Props.C131_spline",
    "Ecl.Props.C131_fails_two_points",
    "Ecl.Props.C131_tension_spline",
    "Ecl.Props.C131_linear",
    "Ecl.Props.C131_linear_never",
    "Ecl.Props.C131_fails_hang",
    "Ecl.Props.C131_tension",
    "Ecl.Props.C131_fails_zero_tension"
   ],
   "note": "Proved over an arbitrary arithmetic with the IEEE rules for NaN: refusal by the smooth linear spline with three or more points, NaN everywhere in tension splines, no trajectory from NaN or from a tension of zero. Refuted: two points are accepted whatever they are (C131_fails_two_points); the builders do not report an error but never return, for a NaN in the waypoints (C131_linear_never, C131_fails_hang) and for a tension of zero with ordinary waypoints (C131_fails_zero_tension). Durations do not overflow to infinity in C131_fails_zero_tension, where arithmetic is exact; with double they reach infinity after some thousand passes, and what follows is not modelled. Allocation failures are not modelled."
  },
  {
   "property": "C132",
   "status": "partial",
   "theorems": [
    "Ecl.Props.C132_sign",
    "Ecl.Props.C132_decision_nonzero",
    "Ecl.Props.C132_returns",
    "Ecl.Props.C132_fails_limit",
    "Ecl.Props.C132_decision",
    "Ecl.Props.C132_fails_default",
    "Ecl.Props.C132_fails_last_limit"
   ],
   "note": "Proved in exact arithmetic, as a decision: with usable waypoints, a tension other than zero and a limit for every joint the call returns if and only if all limits are positive, and the result does not depend on the number of passes granted. Refuted: a zero or negative limit, which nothing checks, makes the call hang for all waypoints (C132_fails_limit). Zero is what the constructor and redimension() set, so that without limits set first neither this nor the linear interpolation ever returns (C132_fails_default); the linear one hangs if the last joint's limit is zero (C132_fails_last_limit) and, with positive limits, as refuted in C82. The sign of the tension does not matter (C132_sign), so that the decision holds for every tension but zero (C132_decision_nonzero; zero hangs, C131). Missing: rounding and overflow of double, where a tiny limit can stretch durations to infinity."
  },
  {
   "property": "C133",
   "status": "partial",
   "theorems": [
    "Ecl.Props.C133_wrap",
    "Ecl.Props.C133_class",
    "Ecl.Props.C133_wrap_single_partial",
    "Ecl.Props.C133_fails_units",
    "Ecl.Props.C133_units_partial",
    "Ecl.Props.C133_read",
    "Ecl.Props.C133_value",
    "Ecl.Props.C133_quadratic_partial",
    "Ecl.Props.C133_fails_quadratic",
    "Ecl.Props.C133_poses_partial",
    "Ecl.Props.C133_fails_distance",
    "Ecl.Props.C133_path"
   ],
   "note": "Proved with subnormal numbers and the largest number of IEEE float and double, overflow itself left open: wrapping up to 2^1022 (double) and 2^126 (float); sums and differences of angles; reading any text at all; distances to trajectories with any float coordinates; values of polynomials up to 2^900 with an additional absolute error; conversions of units and quadratic roots in stated ranges; distances of poses when coordinates agree or differ by 2^-60 to 2^60. Refuted: degrees to radians of the smallest double is 0, a quadratic with coefficients near 2^-600 and the roots 1 and 2 gets the one root 3/2, poses 2^-80 apart have the distance 0. Missing: statistics, pose composition and derivatives with these limits; what happens after an overflow (C130, C131 for infinities that are there from the start)."
  },
  {
   "property": "C134",
   "status": "proved",
   "theorems": [
    "Ecl.Props.C134_smooth",
    "Ecl.Props.C134_natural",
    "Ecl.Props.C134_evaluate",
    "Ecl.Props.C134_tension",
    "Ecl.Props.C134_linear",
    "Ecl.Props.C134_returns"
   ],
   "note": "The arithmetic-generic models of C131 and the exact models of C58, C59, C82, C83 and C132 were written separately; with real numbers they are shown to be equal. Division by zero gives 0 in both readings, except that for a line the exact model skips the root that is not a number; the value there never matters."
  },
  {
   "property": "C135",
   "status": "partial",
   "theorems": [
    "Ecl.Props.C135_write_release",
    "Ecl.Props.C135_write_debug",
    "Ecl.Props.C135_character",
    "Ecl.Props.C135_passes",
    "Ecl.Props.C135_told_partial",
    "Ecl.Props.C135_accepted",
    "Ecl.Props.C135_fails_silent",
    "Ecl.Props.C135_fails_destroyed",
    "Ecl.Props.C135_fails_repeated",
    "Ecl.Props.C135_fails_endless",
    "Ecl.Props.C135_agrees"
   ],
   "note": "Holds in debug builds: if every call returned, all bytes (none of them NUL) have arrived. Writes are decided for all bytes and all terminals in both builds. False in release builds (nothing is ever reported), for consoles destroyed without a flush, for writes that are repeated after an exception (a part appears twice) and for writes of 2^32 bytes (the unsigned counter wraps and the write never ends). On a terminal that accepts the model is that of C24. What the C library keeps after a failed fflush and delivers later counts as lost."
  },
  {
   "property": "C136",
   "status": "partial",
   "theorems": [
    "Ecl.Props.C136_stored_partial",
    "Ecl.Props.C136_defined",
    "Ecl.Props.C136_defined_partial",
    "Ecl.Props.C136_fails_closed",
    "Ecl.Props.C136_fails_flushed_later",
    "Ecl.Props.C136_fails_destroyed",
    "Ecl.Props.C136_fails_unopened",
    "Ecl.Props.C136_fails_reopened",
    "Ecl.Props.C136_fails_repeated",
    "Ecl.Props.C136_agrees"
   ],
   "note": "Proved from opening on as long as calls report success; which histories are undefined is decided for all builds. Refuted: after a failed close the stream is gone but the file counts as open, so that the destructor closes it again (undefined); a flush after a failed one reports success although bytes were lost; the destructor does not report lost bytes; flushing a file that is not open succeeds; opening again forgets the bytes waiting; a failed write that is repeated may be stored twice. With a C library that keeps nothing back the model is that of C71."
  },
  {
   "property": "C137",
   "status": "partial",
   "theorems": [
    "Ecl.Props.C137_rule",
    "Ecl.Props.C137_needed",
    "Ecl.Props.C137_serial",
    "Ecl.Props.C137_fails_serial",
    "Ecl.Props.C137_fails_hex",
    "Ecl.Props.C137_hex_partial",
    "Ecl.Props.C137_sockets",
    "Ecl.Props.C137_fails_endless",
    "Ecl.Props.C137_fails_threadable"
   ],
   "note": "A rule for programs is proved sufficient for every schedule and, if the threads can end, necessary. The socket terminals keep it; the serial terminal keeps it except in debug builds when its second thread cannot be created (decided exactly, refuted there). Refuted: the writer of the hexadecimal terminal starts its thread before its converter is constructed (that is its only fault, C137_hex_partial); the object of a Threadable may be destroyed under its thread; the terminals do not end when their input does. Simultaneous use of the device by two threads is the subject of C147."
  },
  {
   "property": "C138",
   "status": "partial",
   "theorems": [
    "Ecl.Props.C138_cubic",
    "Ecl.Props.C138_fails_silent",
    "Ecl.Props.C138_fails_release",
    "Ecl.Props.C138_heuristic",
    "Ecl.Props.C138_fails_single",
    "Ecl.Props.C138_tension",
    "Ecl.Props.C138_smooth",
    "Ecl.Props.C138_fails_few",
    "Ecl.Props.C138_fails_many",
    "Ecl.Props.C138_fails_substitution",
    "Ecl.Props.C138_evaluate",
    "Ecl.Props.C138_agrees"
   ],
   "note": "The end of every construction is decided exactly for all sizes and three builds (C138_cubic, _heuristic, _tension, and _smooth for 2 to 2^31 points) and agrees with the models of the computed values (C138_agrees). Refuted: fewer than two points in builds without exceptions; too few values in release builds; a single point in the heuristic, whose spline cannot be evaluated; fewer than two or 2^31 + 1 points in smooth linear splines; more than 2^31 + 1 points leave out the back substitution of cubic splines. Smooth linear splines of more than 2^31 + 1 points are not decided. The later accesses of an evaluation are the subject of C56 to C59."
  },
  {
   "property": "C139",
   "status": "partial",
   "theorems": [
    "Ecl.Props.C139_write",
    "Ecl.Props.C139_put",
    "Ecl.Props.C139_write_full",
    "Ecl.Props.C139_told_partial",
    "Ecl.Props.C139_accepted",
    "Ecl.Props.C139_debug_partial",
    "Ecl.Props.C139_fails_lost",
    "Ecl.Props.C139_fails_character",
    "Ecl.Props.C139_fails_repeated",
    "Ecl.Props.C139_fails_partly",
    "Ecl.Props.C139_fails_status",
    "Ecl.Props.C139_fails_deleted",
    "Ecl.Props.C139_agrees"
   ],
   "note": "Every write is decided (C139_write, _write_full, _put). Proved: with only successes reported, the file holds exactly the bytes given; in debug builds nothing taken is lost as long as a refused block is refused whole. Refuted: release builds drop up to 4096 bytes that earlier calls reported as written, and end with a successful flush; in debug builds a character after a refusal is not taken (0 is returned, nothing thrown), a repeated write or a partly stored block is in the file twice, and the status never shows an error; in release builds one refusal makes the destruction of a handle delete the file under the others. Agrees with the model of many handles of C25 (C139_agrees). Writes of 2^32 bytes or more are not modelled here (see C135 for the same loop)."
  },
  {
   "property": "C140",
   "status": "partial",
   "theorems": [
    "Ecl.Props.C140_exact",
    "Ecl.Props.C140_eigenvectors",
    "Ecl.Props.C140_agrees",
    "Ecl.Props.C140_lengths_partial",
    "Ecl.Props.C140_unit",
    "Ecl.Props.C140_axes_partial",
    "Ecl.Props.C140_round",
    "Ecl.Props.C140_fails_diagonal",
    "Ecl.Props.C140_fails_minor",
    "Ecl.Props.C140_fails_flat",
    "Ecl.Props.C140_fails_axis"
   ],
   "note": "False as stated: the diagonal matrix of 1 and the next number has NaN for both lengths (C140_fails_diagonal), a positive definite matrix near a singular one has NaN for the minor length and axis (C140_fails_minor), very different variances give the minor length 0 (C140_fails_flat), and the major axis can be wrong by a right angle although the eigenvalues are far apart (C140_fails_axis). Proved: error bounds for the lengths if the eigenvalues are not too close and the minor one is not below the error (C140_lengths_partial), for the major axis if the first variance is not less, for the minor axis if it is not more (C140_axes_partial), unit length of the axes and when they are NaN (C140_unit), equal variances (C140_round), and without rounding the decision for all matrices (C140_exact, C140_eigenvectors) and agreement with C66 (C140_agrees). Overflow and underflow are not modelled, nor the intercepts with rounding."
  },
  {
   "property": "C141",
   "status": "partial",
   "theorems": [
    "Ecl.Props.C141_sign",
    "Ecl.Props.C141_linear",
    "Ecl.Props.C141_cubic",
    "Ecl.Props.C141_overflow",
    "Ecl.Props.C141_fails_high",
    "Ecl.Props.C141_fails_low"
   ],
   "note": "False of the computation with double: once the tension times the length of one segment is 750 or more, everything the spline returns is NaN (C141_overflow, C141_fails_high), and with tensions of 2^-28 down to 2^-300 a spline through three points has the value NaN (C141_fails_low). Proved without rounding: the distance to the polyline is at most the largest bend divided by the tension (C141_linear), the distances to the natural cubic spline in value, slope and acceleration shrink with the square of the tension (C141_cubic), and the sign of the tension does not matter (C141_sign). What rounding does at moderate tensions is not bounded."
  },
  {
   "property": "C142",
   "status": "partial",
   "theorems": [
    "Ecl.Props.C142_single_partial",
    "Ecl.Props.C142_fails_copy",
    "Ecl.Props.C142_fails_assign",
    "Ecl.Props.C142_shared_file",
    "Ecl.Props.C142_fails_shared_file",
    "Ecl.Props.C142_fails_console"
   ],
   "note": "Proved of objects that are copied and assigned only while they hold nothing. Refuted otherwise: once a copy of an open file, a string device or a semaphore is closed or destroyed (or a string device grows), every further call on the original is undefined, whatever else happens meanwhile; assigning to an object that holds something loses that for ever; text in the buffer of a copied console is printed twice. Shared files: decided for every history, exactly as many handles can be destroyed as the file was opened times, copies are not counted. Opening and closing succeed; one semaphore object per name; sockets and serial ports are in C144, threads in C145, shared memory in C146."
  },
  {
   "property": "C143",
   "status": "partial",
   "theorems": [
    "Ecl.Props.C143_history_partial",
    "Ecl.Props.C143_readable",
    "Ecl.Props.C143_fails_stale_settings"
   ],
   "note": "Proved for both builds and all sequences of calls, with precisions up to 20 and numbers of up to 29 characters, except that a pose without settings given while one with temporary settings waits is shown with those (refuted). Two poses with the same text have the same seven numerals. The pose is taken to be alive and unchanged when it is streamed (the formatter keeps a pointer)."
  },
  {
   "property": "C144",
   "status": "partial",
   "theorems": [
    "Ecl.Props.C144_considerate_partial",
    "Ecl.Props.C144_write_partial",
    "Ecl.Props.C144_fails_closed_client",
    "Ecl.Props.C144_fails_refused",
    "Ecl.Props.C144_refused",
    "Ecl.Props.C144_fails_copy",
    "Ecl.Props.C144_fails_assign"
   ],
   "note": "Proved for histories in which no open device is copied or assigned, and clients are closed or destroyed only while open. Refuted without copies: a client that was closed before it is destroyed closes a descriptor that may by then belong to another device, whose data then goes to a third. The same after a connection that was refused (C144_fails_refused). Refuted for copies of open devices, and for assignments to them, which leave descriptors behind. Opening succeeds or is refused by the other side, writes are accepted whole, calls do not overlap."
  },
  {
   "property": "C145",
   "status": "partial",
   "theorems": [
    "Ecl.Props.C145_single_partial",
    "Ecl.Props.C145_fails_copy",
    "Ecl.Props.C145_fails_assign"
   ],
   "note": "Proved of objects that are copied and assigned only while they are responsible for no thread (not started, or joined): no call is undefined, nothing is given back twice, and everything once nobody is responsible any more. Refuted otherwise: once a copy of a started object is destroyed or joined, destroying or joining the original is undefined, whatever happened meanwhile; a thread whose object is assigned to is never given back. Creating threads succeeds; cancel is left out (see C35)."
  },
  {
   "property": "C146",
   "status": "partial",
   "theorems": [
    "Ecl.Props.C146_kept_partial",
    "Ecl.Props.C146_fails_copy",
    "Ecl.Props.C146_fails_foreign",
    "Ecl.Props.C146_fails_stolen",
    "Ecl.Props.C146_fails_name"
   ],
   "note": "Proved of histories in which no handle is destroyed while a copy of it exists. Refuted otherwise: once a copy is destroyed, reading or writing through the original is undefined, whatever else happens short of another construction (C146_fails_copy); a handle constructed later gets the address, so that the original shows the memory of another name (C146_fails_foreign) and takes it away on destruction (C146_fails_stolen); the name is removed although its maker still exists (C146_fails_name). System calls succeed and constructors are not interrupted (both are in C84); all handles store one type."
  },
  {
   "property": "C147",
   "status": "partial",
   "theorems": [
    "Ecl.Props.C147_decision",
    "Ecl.Props.C147_client_partial",
    "Ecl.Props.C147_fails_error",
    "Ecl.Props.C147_fails_hang_up",
    "Ecl.Props.C147_fails_hidden",
    "Ecl.Props.C147_fails_closed_twice"
   ],
   "note": "Decided: for any set of answers the system may give to each thread, there is a schedule with a data race exactly if both threads can come to set the error, or the writing one to close the device, or, with a client, the reading one (C147_decision). Proved: a client is safe as long as all calls succeed (C147_client_partial). Refuted: serial ports and servers race on error_handler although every call succeeds (C147_fails_error); a partner that hangs up makes a client race on is_open (C147_fails_hang_up); a failure is hidden by a success of the other thread (C147_fails_hidden); both threads may close the descriptor (C147_fails_closed_twice). One reading and one writing thread; peek, remaining and reopening are left out."
  },
  {
   "property": "C148",
   "status": "partial",
   "theorems": [
    "Ecl.Props.C148_divide_quadratic",
    "Ecl.Props.C148_divide_cubic",
    "Ecl.Props.C148_remainder",
    "Ecl.Props.C148_intersection",
    "Ecl.Props.C148_refused",
    "Ecl.Props.C148_linear",
    "Ecl.Props.C148_cubic_partial",
    "Ecl.Props.C148_monotone_partial",
    "Ecl.Props.C148_quadratic_partial",
    "Ecl.Props.C148_extrema_partial",
    "Ecl.Props.C148_fails_maximum",
    "Ecl.Props.C148_fails_minimum",
    "Ecl.Props.C148_fails_on_line"
   ],
   "note": "Proved: quotient and remainder reproduce quadratics and cubics and the remainder is the value at the factor, with error bounds (C148_divide_quadratic, C148_divide_cubic, C148_remainder); a returned intersection exists, with relative error 4/2^53 of x and error 7 (|f0| + |f1 x|)/2^53 of y (C148_intersection); lines are refused if their slopes agree up to 1e-12, within 2^-51 (C148_refused); linear extrema (C148_linear); cubic extrema are attained and no worse than the ends (C148_cubic_partial), and right where the cubic is monotone (C148_monotone_partial), or a quadratic (C148_quadratic_partial), or up to 11 (w/2^53)^(3/2) / (3 c3)^2 with w = 4 c2^2 + 12 |c1 c3| (C148_extrema_partial). Refuted: the maximum of x - x^2 + 2^-60 x^3 on [0, 1], above 1/4, comes out as 2^-60, and likewise a minimum (C148_fails_maximum, C148_fails_minimum); the intersection of y = 49 x - 1 with the x-axis is not on it (C148_fails_on_line). Overflow, underflow and fused operations are not modelled."
  },
  {
   "property": "C149",
   "status": "partial",
   "theorems": [
    "Ecl.Props.C149_count_partial",
    "Ecl.Props.C149_residual",
    "Ecl.Props.C149_single",
    "Ecl.Props.C149_fails_lost",
    "Ecl.Props.C149_fails_nan",
    "Ecl.Props.C149_fails_accuracy"
   ],
   "note": "Proved: as many numbers as real roots, no NaN, unless the discriminant is below 64/2^53 of its terms or, if positive, q below 13/2^53 of its terms (C149_count_partial); with an accurate C library, the cubic is at most |c3| (650 sizeP^(3/2) + 13 sizeQ) / 2^53 at every number among two or three results, sizeP and sizeQ being the terms of p and q (C149_residual), and at most |c3| (sizeP^(3/2) + sizeQ) / 512 at a single one (C149_single). Refuted: (x-1)^2 (x+6) gets a single result (C149_fails_lost), (x-1883)^2 (x+3766) three NaN (C149_fails_nan); x^3 + 3/2^17 x - 8 gets the root 2, off by more than a millionth (C149_fails_accuracy). Overflow, underflow and fused operations are not modelled."
  },
  {
   "property": "C150",
   "status": "partial",
   "theorems": [
    "Ecl.Props.C150_near_partial",
    "Ecl.Props.C150_fails_vertical",
    "Ecl.Props.C150_fails_exact"
   ],
   "note": "Proved for segments that are not vertical: every point is within 12 M / 2^53 of the line, M bounding the coordinates (C150_near_partial). Refuted: vertical segments, whose line is the mirror image in the y-axis (C150_fails_vertical, as C61_fails_vertical without rounding), and exactness: the equation of (0,0)-(3,1) does not hold at (3,1) (C150_fails_exact). Overflow, underflow and fused operations are not modelled."
  },
  {
   "property": "C151",
   "status": "partial",
   "theorems": [
    "Ecl.Props.C151_same",
    "Ecl.Props.C151_kept",
    "Ecl.Props.C151_progress",
    "Ecl.Props.C151_exclusive",
    "Ecl.Props.C151_fails_nested",
    "Ecl.Props.C151_exit",
    "Ecl.Props.C151_exit_partial",
    "Ecl.Props.C151_fails_exit"
   ],
   "note": "Proved: one object for all threads (C151_same, C151_kept), who waits and for whom (C151_progress, C151_exclusive), and exactly when the destruction of static objects is undefined behaviour (C151_exit), in particular never for objects completed after the singleton (C151_exit_partial). Refuted: use by destructors of objects completed before it (C151_fails_exit); a constructor that asks for its own singleton is undefined behaviour (C151_fails_nested). Rests on the C++11 rules for static local variables, stated in the model. Copies of the object, which the base class does not forbid, and threads running during exit are not modelled."
  },
  {
   "property": "C152",
   "status": "partial",
   "theorems": [
    "Ecl.Props.C152_decides",
    "Ecl.Props.C152_fails_poll",
    "Ecl.Props.C152_fails_restart",
    "Ecl.Props.C152_guarded_partial"
   ],
   "note": "Refuted: with nothing but questions between start and the use, every question and every use of what the thread writes is a data race, in every order of the two threads (C152_fails_poll); starting again after the end is one, too (C152_fails_restart). C152_decides says for all executions exactly which uses of the flag race with the end of the thread: the end is the last thing the thread does apart from deleting its task, so only the reuse of that memory orders anything after it. Proved: no race where the thread itself unlocks a mutex after writing and the other one locks it before using (C152_guarded_partial). The values seen are the subject of C74. Atomics of the user and joining are not in the model of happens-before."
  },
  {
   "property": "C153",
   "status": "partial",
   "theorems": [
    "Ecl.Props.C153_enough_partial",
    "Ecl.Props.C153_kept",
    "Ecl.Props.C153_refuses",
    "Ecl.Props.C153_fails_exact",
    "Ecl.Props.C153_total"
   ],
   "note": "Proved: the rate is exceeded by at most four roundings, durations are not longer than needed up to three (C153_enough_partial), failure is reported exactly as without rounding (C153_refuses), no duration is shortened (C153_kept), the total is not shorter than any segment and off by at most one rounding for each (C153_total). Refuted: the exact claim, for 1 at the rate 3 (C153_fails_exact). Rates that are zero or negative are the subject of C69; overflow and underflow are not modelled."
  },
  {
   "property": "C154",
   "status": "partial",
   "theorems": [
    "Ecl.Props.C154_joined_partial",
    "Ecl.Props.C154_fails_cancelled"
   ],
   "note": "Proved for threads that are not cancelled and joined once: all that the thread did happens before all that the owner does after join(), so nothing races (C154_joined_partial). Refuted after cancel(): it sets the task to null, so that join() returns without waiting, and every use of what the thread writes is a data race in every order (C154_fails_cancelled). Thread creation succeeds; cancelled threads are taken to do their actions up to the end, which is one of the possibilities; joining twice and deleting the task twice are the subject of C35."
  },
  {
   "property": "C155",
   "status": "partial",
   "theorems": [
    "Ecl.Props.C155_guarded",
    "Ecl.Props.C155_counter_partial",
    "Ecl.Props.C155_fails_lock",
    "Ecl.Props.C155_fails_locks"
   ],
   "note": "Proved: data used only with the mutex held is never raced for (C155_guarded), given that the system gives the mutex to one thread at a time. The mutex itself: its counter is free of races if threads use trylock and unlock only, and locks() while they have the mutex (C155_counter_partial). Refuted for lock(): it increments the plain counter before it waits for the mutex, so two threads that begin with lock(), both made before either runs, race for it in every execution (C155_fails_lock); and for locks(): a thread that only asks races with every thread that takes the mutex or lets it go (C155_fails_locks). The calls are taken to succeed; values and owners are the subject of C73, whose model takes each update of the counter as one step, which this claim shows lock() does not guarantee."
  },
  {
   "property": "C156",
   "status": "partial",
   "theorems": [
    "Ecl.Props.C156_exact_partial",
    "Ecl.Props.C156_trylock",
    "Ecl.Props.C156_exclusive",
    "Ecl.Props.C156_progress",
    "Ecl.Props.C156_fails_any",
    "Ecl.Props.C156_fails_meet"
   ],
   "note": "Proved: exact whenever no thread is inside of a count, if no thread writes the counter while another is between its read and its write (C156_exact_partial); exact in every interleaving for threads that use trylock and unlock only (C156_trylock); mutual exclusion and progress of waiting threads never depend on the counter (C156_exclusive, C156_progress). Refuted with lock(), which counts before it has the mutex: for every value below 2^32 two threads have an execution after which nobody uses the mutex and locks() returns that value for good (C156_fails_any); two first locks that meet give one instead of two and later 4294967295 (C156_fails_meet). Reads and writes are taken as sequentially consistent here; by C155 C++ does not even promise that."
  }
 ]
}