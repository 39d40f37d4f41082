{
 "claims": [
  {
   "property": "C01",
   "status": "proved",
   "theorems": [
    "Diminuto.Fletcher.fletcher_pieces",
    "Diminuto.Fletcher.fletcher_value"
   ],
   "note": ""
  },
  {
   "property": "C02",
   "status": "proved",
   "theorems": [
    "Diminuto.Fletcher.fletcher_one_byte",
    "Diminuto.Fletcher.fletcher_two_adjacent"
   ],
   "note": ""
  },
  {
   "property": "C03",
   "status": "proved",
   "theorems": [
    "Diminuto.Kermit.kermit_is_ccitt_remainder",
    "Diminuto.Kermit.kermit_pieces"
   ],
   "note": ""
  },
  {
   "property": "C04",
   "status": "proved",
   "theorems": [
    "Diminuto.Kermit.kermit_detects_bursts",
    "Diminuto.Kermit.kermit_detects_odd",
    "Diminuto.Kermit.kermit_injective_init"
   ],
   "note": ""
  },
  {
   "property": "C05",
   "status": "proved",
   "theorems": [
    "Diminuto.Kermit.kermit_chars_round_trip",
    "Diminuto.Kermit.kermit_chars_valid_iff"
   ],
   "note": ""
  },
  {
   "property": "C06",
   "status": "proved",
   "theorems": [
    "Diminuto.Hamming.hamming_no_error",
    "Diminuto.Hamming.hamming_single_error",
    "Diminuto.Hamming.hamming_double_error",
    "Diminuto.Hamming.hamming_distance"
   ],
   "note": "finite domain, whole table checked in the kernel"
  },
  {
   "property": "C07",
   "status": "proved",
   "theorems": [
    "Diminuto.Framer.framer_round_trip",
    "Diminuto.Framer.framer_writer_emits_frame",
    "Diminuto.Framer.framer_accepts_valid"
   ],
   "note": ""
  },
  {
   "property": "C08",
   "status": "proved",
   "theorems": [
    "Diminuto.Framer.framer_stays_in_buffer",
    "Diminuto.Framer.framer_overflow_stores_nothing"
   ],
   "note": ""
  },
  {
   "property": "C09",
   "status": "proved",
   "theorems": [
    "Diminuto.Framer.framer_delivers_only_valid"
   ],
   "note": ""
  },
  {
   "property": "C10",
   "status": "proved",
   "theorems": [
    "Diminuto.Framer.framer_flow_control_transparent",
    "Diminuto.Framer.framer_throttle_is_last"
   ],
   "note": ""
  },
  {
   "property": "C11",
   "status": "proved",
   "theorems": [
    "Diminuto.Framer.framer_output_clean"
   ],
   "note": ""
  },
  {
   "property": "C12",
   "status": "proved",
   "theorems": [
    "Diminuto.Framer.framer_resynchronises",
    "Diminuto.Framer.framer_resynchronises_after_abort"
   ],
   "note": ""
  },
  {
   "property": "C13",
   "status": "proved",
   "theorems": [
    "Diminuto.Framer.framer_counts",
    "Diminuto.Framer.framer_ideal_channel"
   ],
   "note": ""
  },
  {
   "property": "C14",
   "status": "partial",
   "theorems": [
    "Diminuto.Escape.escape_round_trip_partial",
    "Diminuto.Escape.escape_round_trip_nul_counterexample",
    "Diminuto.Escape.escape_round_trip_special_counterexample"
   ],
   "note": "False when a NUL is followed by an octal digit, or when letters used by C escapes are declared special; proved otherwise."
  },
  {
   "property": "C15",
   "status": "proved",
   "theorems": [
    "Diminuto.Escape.escape_collapse_bounded",
    "Diminuto.Escape.escape_expand_bounded"
   ],
   "note": ""
  },
  {
   "property": "C16",
   "status": "proved",
   "theorems": [
    "Diminuto.StringCopy.string_copy_bounded",
    "Diminuto.StringCopy.string_copy_zero"
   ],
   "note": ""
  },
  {
   "property": "C17",
   "status": "proved",
   "theorems": [
    "Diminuto.Ring.ring_refines_fifo",
    "Diminuto.Ring.ring_slots_partition",
    "Diminuto.Ring.ring_peek",
    "Diminuto.Ring.ring_next_walks_grant"
   ],
   "note": ""
  },
  {
   "property": "C18",
   "status": "partial",
   "theorems": [
    "Diminuto.Ring.ring_producer_oversized_counterexample",
    "Diminuto.Ring.ring_producer_refuses_partial",
    "Diminuto.Ring.ring_consumer_refuses",
    "Diminuto.Ring.ring_zero_capacity_undefined"
   ],
   "note": "False of the code for producer requests near 2^32 (used+request wraps); proved for every request up to the capacity and for all consumer requests."
  },
  {
   "property": "C19",
   "status": "proved",
   "theorems": [
    "Diminuto.Cue.cue_output_is_latest_run",
    "Diminuto.Cue.cue_three_equal",
    "Diminuto.Cue.cue_change_needs_three",
    "Diminuto.Cue.cue_edge_codes",
    "Diminuto.Cue.cue_raw_edges"
   ],
   "note": ""
  },
  {
   "property": "C20",
   "status": "proved",
   "theorems": [
    "Diminuto.DList.list_well_formed",
    "Diminuto.DList.list_run_refines",
    "Diminuto.DList.list_step_refines"
   ],
   "note": "Full functional specification of every operation (ListSpec.lean), every history, every argument."
  },
  {
   "property": "C21",
   "status": "partial",
   "theorems": [
    "Diminuto.DList.list_queue_refines_partial",
    "Diminuto.DList.list_fifo",
    "Diminuto.DList.list_lifo",
    "Diminuto.DList.list_removed_alone",
    "Diminuto.DList.list_take_empty",
    "Diminuto.DList.list_run_refines",
    "Diminuto.DList.list_enqueue_tail_counterexample"
   ],
   "note": "False when the node enqueued is already the last of the queue: it is removed.  Proved for every history in which a node is put on a list that it is not on; list_run_refines gives the exact behaviour in all cases."
  },
  {
   "property": "C22",
   "status": "proved",
   "theorems": [
    "Diminuto.DList.list_cut_exact",
    "Diminuto.DList.list_splice_exact",
    "Diminuto.DList.list_cut_splice",
    "Diminuto.DList.list_run_refines"
   ],
   "note": ""
  },
  {
   "property": "C23",
   "status": "partial",
   "theorems": [
    "Diminuto.DList.list_audit_exact",
    "Diminuto.DList.list_audit_complete_partial",
    "Diminuto.DList.list_audit_sound_partial",
    "Diminuto.DList.list_audit_counterexample"
   ],
   "note": "False: the root of the node opposite to the audited one is not checked on a ring of even size, nor that the root is on the ring.  What the audit accepts is characterised exactly."
  },
  {
   "property": "C24",
   "status": "proved",
   "theorems": [
    "Diminuto.Tree.tree_redblack",
    "Diminuto.Tree.tree_defined",
    "Diminuto.Tree.tree_insert_orphan"
   ],
   "note": "Pointer-level model, any number of nodes and root pointers, any history of insertions, removals and replacements, any comparator (not even consistent).  Nodes and root pointers are initialised and a node is inserted next to a node on a tree."
  },
  {
   "property": "C25",
   "status": "proved",
   "theorems": [
    "Diminuto.Tree.store_refines",
    "Diminuto.Tree.store_keys_distinct",
    "Diminuto.Tree.store_put_find",
    "Diminuto.Tree.store_remove_find"
   ],
   "note": "Refinement of an ownership map for every history; the comparator is a total preorder on the keys of the nodes, which do not change."
  },
  {
   "property": "C26",
   "status": "proved",
   "theorems": [
    "Diminuto.Tree.tree_iterate",
    "Diminuto.Tree.store_iterate",
    "Diminuto.Tree.tree_remove_order",
    "Diminuto.Tree.tree_replace_order",
    "Diminuto.Tree.tree_insertLeft_order",
    "Diminuto.Tree.tree_insertRight_order"
   ],
   "note": ""
  },
  {
   "property": "C27",
   "status": "partial",
   "theorems": [
    "Diminuto.Tree.audit_accepts",
    "Diminuto.Tree.audit_accepts_reached",
    "Diminuto.Tree.audit_terminates",
    "Diminuto.Tree.audit_exact_partial",
    "Diminuto.Tree.audit_exact_counterexample",
    "Diminuto.Tree.audit_lopsided_counterexample",
    "Diminuto.Tree.audit_twin_counterexample"
   ],
   "note": "False: trees with unequal black counts at nodes with one child are accepted, and a node that is twice the child of another.  Every valid tree is accepted; what an accepted tree satisfies is proved."
  },
  {
   "property": "C28",
   "status": "proved",
   "theorems": [
    "Diminuto.Throttle.throttle_delay_exact",
    "Diminuto.Throttle.throttle_alarm_exact",
    "Diminuto.Throttle.throttle_request_idempotent",
    "Diminuto.Throttle.throttle_honour_no_alarm",
    "Diminuto.Throttle.throttle_window_bound"
   ],
   "note": "An admission is a request and a commit at the same time; times do not go backwards and no debt reaches 2^64 ticks.  Misuses that break it are shown by throttle_double_commit_counterexample and throttle_wait_without_request_counterexample."
  },
  {
   "property": "C29",
   "status": "proved",
   "theorems": [
    "Diminuto.Throttle.throttle_policer_exact"
   ],
   "note": ""
  },
  {
   "property": "C30",
   "status": "proved",
   "theorems": [
    "Diminuto.Throttle.shaper_delay_exact",
    "Diminuto.Throttle.shaper_alarm_exact",
    "Diminuto.Throttle.shaper_honour_conforms"
   ],
   "note": ""
  },
  {
   "property": "C31",
   "status": "partial",
   "theorems": [
    "Diminuto.Fibonacci.fibonacci_strictly_below_partial",
    "Diminuto.Fibonacci.fibonacci_documented_partial",
    "Diminuto.Fibonacci.fibonacci_bounded_monotone",
    "Diminuto.Fibonacci.fibonacci_predefined",
    "Diminuto.Fibonacci.fibonacci_set_limit",
    "Diminuto.Fibonacci.fibonacci_documented_counterexample",
    "Diminuto.Fibonacci.fibonacci_lowered_limit_counterexample"
   ],
   "note": "A limit that is itself a Fibonacci number is never returned; proved with strict inequality."
  },
  {
   "property": "C32",
   "status": "partial",
   "theorems": [
    "Diminuto.Modulator.factor_preserves_ratio",
    "Diminuto.Modulator.factor_not_lowest_terms_counterexample",
    "Diminuto.Modulator.modulator_cycle_partial",
    "Diminuto.Modulator.modulator_extremes",
    "Diminuto.Modulator.modulator_duty_never_exact_counterexample"
   ],
   "note": "The cycle is (on+1) of (on+off+2) firings, so the duty is never exact for 0<duty<255; exact waveform proved."
  },
  {
   "property": "C33",
   "status": "partial",
   "theorems": [
    "Diminuto.Controller.controller_output_legal",
    "Diminuto.Controller.controller_run_legal_partial",
    "Diminuto.Controller.controller_tame_no_overflow",
    "Diminuto.Controller.controller_default_overflow_counterexample"
   ],
   "note": "Holds for every call that does not overflow; overflow is excluded for bounded gains and shown reachable with the default parameters."
  },
  {
   "property": "C34",
   "status": "proved",
   "theorems": [
    "Diminuto.ReaderWriter.rw_mutual_exclusion",
    "Diminuto.ReaderWriter.rw_counters",
    "Diminuto.ReaderWriter.rw_never_fails"
   ],
   "note": "Any number of threads, any schedule, spurious wake-ups, timeouts, priorities, nested readers.  Steps are critical sections of the mutex; the mutex and condition variables are as in POSIX; cancellation is C59."
  },
  {
   "property": "C35",
   "status": "proved",
   "theorems": [
    "Diminuto.ReaderWriter.rw_fifo",
    "Diminuto.ReaderWriter.rw_no_overtaking",
    "Diminuto.ReaderWriter.rw_grant_recorded",
    "Diminuto.ReaderWriter.rw_reader_waits_for_writer",
    "Diminuto.ReaderWriter.rw_readers_enter_together"
   ],
   "note": ""
  },
  {
   "property": "C36",
   "status": "proved",
   "theorems": [
    "Diminuto.ReaderWriter.rw_no_lost_wakeup",
    "Diminuto.ReaderWriter.rw_given_is_awake",
    "Diminuto.ReaderWriter.rw_serves_everyone",
    "Diminuto.ReaderWriter.rw_nested_counterexample"
   ],
   "note": "Progress assumes that no thread asks for the lock while it holds it (rw_nested_counterexample shows why)."
  },
  {
   "property": "C37",
   "status": "partial",
   "theorems": [
    "Diminuto.ReaderWriter.rw_timeout_partial",
    "Diminuto.ReaderWriter.rw_poll_partial",
    "Diminuto.ReaderWriter.rw_timeout_counterexample",
    "Diminuto.ReaderWriter.rw_priority_counterexample"
   ],
   "note": "False: a writer that times out at the head of the line leaves the readers behind it waiting for the readers that hold the lock.  What the timeout itself changes is proved."
  },
  {
   "property": "C38",
   "status": "partial",
   "theorems": [
    "Diminuto.Mux.mux_ready_once_partial",
    "Diminuto.Mux.mux_ready_order",
    "Diminuto.Mux.mux_write_clean",
    "Diminuto.Mux.mux_clean",
    "Diminuto.Mux.mux_ready_counterexample",
    "Diminuto.Mux.mux_error_counterexample"
   ],
   "note": "False if a ready accepting descriptor lies between two reading descriptors: FD_CLR(-1).  Proved if not, for every history and every answer of the kernel."
  },
  {
   "property": "C39",
   "status": "partial",
   "theorems": [
    "Diminuto.Mux.mux_bounds_exact",
    "Diminuto.Mux.mux_returns",
    "Diminuto.Mux.mux_wait_examines_partial",
    "Diminuto.Mux.mux_wait_examines_counterexample"
   ],
   "note": "The bounds are proved for every history.  That every registered descriptor is examined is false if one was registered for both reading and accepting; proved otherwise."
  },
  {
   "property": "C40",
   "status": "proved",
   "theorems": [
    "Diminuto.Buffer.buffer_refines",
    "Diminuto.Buffer.buffer_get_fresh",
    "Diminuto.Buffer.buffer_strict",
    "Diminuto.Buffer.buffer_no_duplicates",
    "Diminuto.Buffer.buffer_spec_total",
    "Diminuto.Buffer.buffer_pool_valid"
   ],
   "note": "Outside of the preconditions: buffer_double_free_counterexample, buffer_huge_counterexample, buffer_calloc_counterexample."
  },
  {
   "property": "C41",
   "status": "proved",
   "theorems": [
    "Diminuto.Well.well_refines_queue",
    "Diminuto.Well.well_free_or_held"
   ],
   "note": "The C code does not check what is freed: well_double_free_counterexample."
  },
  {
   "property": "C42",
   "status": "proved",
   "theorems": [
    "Diminuto.Observation.observation_atomic",
    "Diminuto.Observation.observation_reader_stable",
    "Diminuto.Observation.observation_others_keep",
    "Diminuto.Observation.observation_temporaries",
    "Diminuto.Observation.observation_checkpoint_prefix",
    "Diminuto.Observation.observation_path"
   ],
   "note": "Any number of observations of the same path, any interleaving of their system calls, any crash of a process (not of the kernel).  observation_path_counterexample, observation_checkpoint_counterexample and observation_create_counterexample show what is not so."
  },
  {
   "property": "C43",
   "status": "partial",
   "theorems": [
    "Diminuto.Lock.lock_atomic_partial",
    "Diminuto.Lock.lock_contents_partial",
    "Diminuto.Lock.lock_exclusive_partial",
    "Diminuto.Lock.lock_no_litter_partial",
    "Diminuto.Lock.lock_quiet_partial",
    "Diminuto.Lock.lock_silent_partial",
    "Diminuto.Lock.lock_returns",
    "Diminuto.Lock.lock_sequential",
    "Diminuto.Lock.lock_name_counterexample",
    "Diminuto.Lock.lock_fclose_counterexample"
   ],
   "note": "Any number of processes, any interleaving of their system calls, any crash.  Missing: false if mkstemp finds a name that another call is still going to unlink (lock_name_counterexample), and undefined behaviour if fclose fails (lock_fclose_counterexample)."
  },
  {
   "property": "C44",
   "status": "proved",
   "theorems": [
    "Diminuto.Time.time_separate_exact",
    "Diminuto.Time.time_recombine",
    "Diminuto.Time.time_duration_exact"
   ],
   "note": "The magnitude of the least tick count overflows: time_separate_overflow."
  },
  {
   "property": "C45",
   "status": "partial",
   "theorems": [
    "Diminuto.Time.frequency_conversion_partial",
    "Diminuto.Time.frequency_conversion_counterexample",
    "Diminuto.Time.frequency_zero_counterexample"
   ],
   "note": "False for negative tick counts (rounded towards zero) and frequencies that do not divide 10^9."
  },
  {
   "property": "C46",
   "status": "proved",
   "theorems": [
    "Diminuto.Fd.fd_read_exact",
    "Diminuto.Fd.fd_read_minimum",
    "Diminuto.Fd.fd_write_exact",
    "Diminuto.Fd.fd_write_minimum",
    "Diminuto.Fd.fd_read_blocks"
   ],
   "note": "fd_minimum_counterexample shows what happens beyond SSIZE_MAX."
  },
  {
   "property": "C47",
   "status": "partial",
   "theorems": [
    "Diminuto.Endpoint.endpoint_meaning_partial",
    "Diminuto.Endpoint.endpoint_total_partial",
    "Diminuto.Endpoint.endpoint_syntax_partial",
    "Diminuto.Endpoint.endpoint_port_partial",
    "Diminuto.Endpoint.endpoint_overlong_counterexample",
    "Diminuto.Endpoint.endpoint_port_counterexample",
    "Diminuto.Endpoint.endpoint_overflow_counterexample",
    "Diminuto.Endpoint.endpoint_ignored",
    "Diminuto.Endpoint.endpoint_ignored_counterexample",
    "Diminuto.Endpoint.endpoint_address_counterexample"
   ],
   "note": "The complete result is characterised by a grammar, for every string of up to 4095 characters and any resolver.  False: strings that are too long are accepted, ports above 65535 are truncated, and above 2147483647 atoi has undefined behaviour."
  },
  {
   "property": "C48",
   "status": "proved",
   "theorems": [
    "Diminuto.Command.command_length_exact",
    "Diminuto.Command.command_line_bounded_exact",
    "Diminuto.Command.command_line_zero"
   ],
   "note": ""
  },
  {
   "property": "C49",
   "status": "partial",
   "theorems": [
    "Diminuto.Canonical.canonicalize_exact_partial",
    "Diminuto.Canonical.canonicalize_splits_unique",
    "Diminuto.Canonical.canonicalize_absolute_partial",
    "Diminuto.Canonical.canonicalize_refused",
    "Diminuto.Canonical.canonicalize_root_counterexample",
    "Diminuto.Canonical.canonicalize_dots_counterexample"
   ],
   "note": "False for \"/\", \"/.\", \"/..\" and \"/file\": the character before an empty string is read.  Proved for all other paths, for any realpath."
  },
  {
   "property": "C50",
   "status": "partial",
   "theorems": [
    "Diminuto.Signals.signals_atomic_partial",
    "Diminuto.Signals.signals_returned_partial",
    "Diminuto.Signals.signals_none_lost_partial",
    "Diminuto.Signals.signals_single_thread",
    "Diminuto.Signals.signals_race_counterexample",
    "Diminuto.Signals.signals_handlers_counterexample",
    "Diminuto.Signals.signals_install_counterexample"
   ],
   "note": "False with several threads: a handler in another thread can run between the two accesses of a check, or of another handler.  Proved for executions in which no two threads access the counter at once, in particular if one thread gets the signals and checks."
  },
  {
   "property": "C51",
   "status": "proved",
   "theorems": [
    "Diminuto.Time.logical_clock_exact",
    "Diminuto.Time.logical_clock_unique"
   ],
   "note": "Calls are critical sections, hence a sequence; resets at any point included."
  },
  {
   "property": "C52",
   "status": "partial",
   "theorems": [
    "Diminuto.Timer.timer_stop_partial",
    "Diminuto.Timer.timer_not_started",
    "Diminuto.Timer.timer_state_partial",
    "Diminuto.Timer.timer_stop_can_finish_partial",
    "Diminuto.Timer.timer_overlap_counterexample",
    "Diminuto.Timer.timer_timeout_counterexample",
    "Diminuto.Timer.timer_two_stops_counterexample",
    "Diminuto.Timer.timer_self_counterexample"
   ],
   "note": "False if calls of the function overlap, after a stop that timed out, and for two concurrent stops.  Proved for all other executions, any number of expirations and threads."
  },
  {
   "property": "C53",
   "status": "proved",
   "theorems": [
    "Diminuto.Memory.memory_power_least",
    "Diminuto.Memory.memory_is_power_iff",
    "Diminuto.Memory.memory_alignment_least"
   ],
   "note": "memory_alignment_overflow_counterexample shows what happens on overflow."
  },
  {
   "property": "C54",
   "status": "partial",
   "theorems": [
    "Diminuto.Dump.dump_exact_partial",
    "Diminuto.Dump.dump_lines_partial",
    "Diminuto.Dump.dump_each_byte_once",
    "Diminuto.Dump.dump_hex_value",
    "Diminuto.Dump.dump_wrap_counterexample",
    "Diminuto.Dump.dump_address_counterexample",
    "Diminuto.Dump.dump_width_counterexample"
   ],
   "note": "The complete output is characterised, for every format.  Missing: false if the address of the end of the last line overflows; addresses are shown modulo 2^32."
  },
  {
   "property": "C55",
   "status": "partial",
   "theorems": [
    "Diminuto.Controller.controller_saturates_partial",
    "Diminuto.Controller.controller_saturates_counterexample"
   ],
   "note": "False: conversion to 16 bits precedes limiting."
  },
  {
   "property": "C56",
   "status": "partial",
   "theorems": [
    "Diminuto.Escape.escape_trim_partial",
    "Diminuto.Escape.escape_trim_bounded",
    "Diminuto.Escape.escape_trim_counterexample"
   ],
   "note": "False for three or more backslashes before the trailing blanks."
  },
  {
   "property": "C57",
   "status": "proved",
   "theorems": [
    "Diminuto.Framer.framer_read_sound",
    "Diminuto.Framer.framer_read_complete",
    "Diminuto.Framer.framer_read_total"
   ],
   "note": ""
  },
  {
   "property": "C58",
   "status": "proved",
   "theorems": [
    "Diminuto.Throttle.interarrival_least",
    "Diminuto.Throttle.jitter_burst_exact",
    "Diminuto.Throttle.burst_tolerance_exact"
   ],
   "note": "Without overflow; interarrival_overflow_counterexample shows the precondition is needed."
  },
  {
   "property": "C59",
   "status": "partial",
   "theorems": [
    "Diminuto.ReaderWriter.rw_cancel_counterexample",
    "Diminuto.ReaderWriter.rw_cancel_leak_counterexample"
   ],
   "note": "False in both cases: a thread cancelled in the line waits for a mutex it already has; one cancelled after it has been given the lock keeps it forever."
  },
  {
   "property": "C60",
   "status": "proved",
   "theorems": [
    "Diminuto.Escape.escape_collapse_exact",
    "Diminuto.Escape.escape_collapse_denotes"
   ],
   "note": ""
  },
  {
   "property": "C61",
   "status": "proved",
   "theorems": [
    "Diminuto.Controller.controller_law"
   ],
   "note": "Runs without overflow of the intermediate results; the sum of output and correction fits in 16 bits (otherwise see C55)."
  },
  {
   "property": "C62",
   "status": "partial",
   "theorems": [
    "Diminuto.Memory.memory_aligned_valid_partial",
    "Diminuto.Memory.memory_aligned_valid_counterexample"
   ],
   "note": "False: alignment 17 is rounded to 24, which is no power of two.  Proved for powers of two without overflow."
  },
  {
   "property": "C63",
   "status": "partial",
   "theorems": [
    "Diminuto.Time.time_zulu_epoch_partial",
    "Diminuto.Time.time_zulu_epoch_gregorian",
    "Diminuto.Time.time_zulu_epoch_counterexample"
   ],
   "note": "For any C library whose timegm inverts gmtime_r, and for the Gregorian calendar, for all tick counts but those within a second of the least one, where the conversion overflows."
  },
  {
   "property": "C64",
   "status": "proved",
   "theorems": [
    "Diminuto.Time.frequency_round_exact"
   ],
   "note": ""
  },
  {
   "property": "C65",
   "status": "proved",
   "theorems": [
    "Diminuto.Time.time_zonename_exact"
   ],
   "note": ""
  },
  {
   "property": "C66",
   "status": "partial",
   "theorems": [
    "Diminuto.Well.well_layout_partial",
    "Diminuto.Well.well_layout_counterexample",
    "Diminuto.Well.well_alignment_counterexample"
   ],
   "note": "False if size times count overflows or the alignment exceeds the page size; proved otherwise."
  },
  {
   "property": "C67",
   "status": "proved",
   "theorems": [
    "Diminuto.Pool.pool_refines",
    "Diminuto.Pool.pool_no_duplicates",
    "Diminuto.Pool.pool_allocation_size"
   ],
   "note": "The C code does not check what is freed: pool_double_free_counterexample."
  },
  {
   "property": "C68",
   "status": "proved",
   "theorems": [
    "Diminuto.Buffer.buffer_contents"
   ],
   "note": "See buffer_realloc_counterexample for what happens when the heap fails."
  },
  {
   "property": "C69",
   "status": "partial",
   "theorems": [
    "Diminuto.Meter.meter_accepts",
    "Diminuto.Meter.meter_measures",
    "Diminuto.Meter.meter_peak_partial",
    "Diminuto.Meter.meter_failures",
    "Diminuto.Meter.meter_peak_counterexample",
    "Diminuto.Meter.meter_sustained_counterexample"
   ],
   "note": "All is proved for every history, except that the peak rate is wrong if there are calls without events (diminuto_meter_update): the interval is that since the update."
  },
  {
   "property": "C70",
   "status": "partial",
   "theorems": [
    "Diminuto.Ping.inet_checksum_rfc1071_partial",
    "Diminuto.Ping.inet_checksum_verifies_partial",
    "Diminuto.Ping.inet_checksum_detects_partial",
    "Diminuto.Ping.inet_checksum_counterexample"
   ],
   "note": "Proved for every message of up to 131074 bytes; false beyond, where the 32-bit sum overflows."
  },
  {
   "property": "C71",
   "status": "partial",
   "theorems": [
    "Diminuto.Ping.ping_in_bounds_partial",
    "Diminuto.Ping.ping_accepts",
    "Diminuto.Ping.ping_request_valid",
    "Diminuto.Ping.ping_round_trip",
    "Diminuto.Ping.ping_header_counterexample"
   ],
   "note": "Proved for every datagram whose header is not longer than itself (the kernel ensures it); the code does not check that."
  },
  {
   "property": "C72",
   "status": "partial",
   "theorems": [
    "Diminuto.Phex.phex_reads_back",
    "Diminuto.Phex.phex_printable",
    "Diminuto.Phex.phex_lines_partial",
    "Diminuto.Phex.phex_unlimited",
    "Diminuto.Phex.phex_finish_partial",
    "Diminuto.Phex.phex_finish_counterexample",
    "Diminuto.Phex.phex_newline_counterexample",
    "Diminuto.Phex.phex_early_counterexample",
    "Diminuto.Phex.phex_long_counterexample",
    "Diminuto.Phex.phex_unlimited_counterexample"
   ],
   "note": "Reading back is proved for all.  The lines are proved if there are no unescaped newlines; false otherwise, and the last line is not ended if it has one character that did not fit on the line before."
  },
  {
   "property": "C73",
   "status": "partial",
   "theorems": [
    "Diminuto.ScatterGather.scattergather_refines_partial",
    "Diminuto.ScatterGather.scattergather_no_leak",
    "Diminuto.ScatterGather.scattergather_received",
    "Diminuto.ScatterGather.scattergather_copy",
    "Diminuto.ScatterGather.scattergather_send_failure_counterexample",
    "Diminuto.ScatterGather.scattergather_append_last_counterexample",
    "Diminuto.ScatterGather.scattergather_size_overflow_counterexample",
    "Diminuto.ScatterGather.scattergather_null_segment_counterexample"
   ],
   "note": "Refinement is proved for every history that meets the stated requirements.  False: sending or receiving a record without segments returns 0; appending the last segment again takes it off; a size near the greatest size_t overflows."
  },
  {
   "property": "C74",
   "status": "partial",
   "theorems": [
    "Diminuto.Poll.poll_wait_exact_partial",
    "Diminuto.Poll.poll_wait_bits_partial",
    "Diminuto.Poll.poll_wait_progress",
    "Diminuto.Poll.poll_defined_partial",
    "Diminuto.Poll.poll_close_lost_counterexample",
    "Diminuto.Poll.poll_close_wrong_counterexample",
    "Diminuto.Poll.poll_error_counterexample",
    "Diminuto.Poll.poll_ready_counterexample",
    "Diminuto.Poll.poll_memory_counterexample",
    "Diminuto.Poll.poll_forever_counterexample"
   ],
   "note": "Proved for every history in which some descriptor is registered or unregistered between a close and the next wait, there is memory, and (for the ready functions) the sets with the same condition do not interleave.  False without these."
  },
  {
   "property": "C75",
   "status": "proved",
   "theorems": [
    "Diminuto.Address.address_embed",
    "Diminuto.Address.address_extract",
    "Diminuto.Address.address_round_trip",
    "Diminuto.Address.address_identify",
    "Diminuto.Address.address_socket"
   ],
   "note": ""
  },
  {
   "property": "C76",
   "status": "partial",
   "theorems": [
    "Diminuto.Address.address_list_partial",
    "Diminuto.Address.address_list_apart_partial",
    "Diminuto.Address.address_list_counterexample"
   ],
   "note": "Proved if no address of the list is \"::\", which is also the terminator; a caller sees nothing after it.  malloc is assumed to succeed since it is not checked."
  },
  {
   "property": "C77",
   "status": "partial",
   "theorems": [
    "Diminuto.Address.address_type4_partial",
    "Diminuto.Address.address_loopback4_counterexample",
    "Diminuto.Address.address_type6_partial",
    "Diminuto.Address.address_6to4_counterexample"
   ],
   "note": "Exact for all blocks but three: 127.0.0.0 is not taken for loopback, and 6to4 and ISATAP addresses are always called global unicast since that is tested first."
  },
  {
   "property": "C78",
   "status": "partial",
   "theorems": [
    "Diminuto.Thread.thread_phases",
    "Diminuto.Thread.thread_single",
    "Diminuto.Thread.thread_join_right_partial",
    "Diminuto.Thread.thread_defined_partial",
    "Diminuto.Thread.thread_states_partial",
    "Diminuto.Thread.thread_ends",
    "Diminuto.Thread.thread_join_returns_partial",
    "Diminuto.Thread.thread_join_twice_counterexample",
    "Diminuto.Thread.thread_join_forever_counterexample",
    "Diminuto.Thread.thread_join_restart_counterexample",
    "Diminuto.Thread.thread_join_broken_counterexample"
   ],
   "note": "That the function is called once per start and that there is one thread at a time is proved for every interleaving.  What a join returns, and that it returns, is proved if at most one caller joins at a time, nobody starts the object meanwhile, and the thread can be set up; each of these is necessary (counterexamples)."
  },
  {
   "property": "C79",
   "status": "partial",
   "theorems": [
    "Diminuto.Thread.thread_notifications",
    "Diminuto.Thread.thread_defined_partial",
    "Diminuto.Thread.thread_notify_counterexample"
   ],
   "note": "The count is exact for every interleaving.  It does not saturate: it is an int32_t that overflows, since it is compared with the greatest unsigned int."
  },
  {
   "property": "C80",
   "status": "partial",
   "theorems": [
    "Diminuto.Number.number_unsigned_reads",
    "Diminuto.Number.number_signed_reads",
    "Diminuto.Number.number_none",
    "Diminuto.Number.number_pointer",
    "Diminuto.Number.number_unique",
    "Diminuto.Number.number_unsigned_accepts_partial",
    "Diminuto.Number.number_signed_accepts_partial",
    "Diminuto.Number.number_port",
    "Diminuto.Number.number_port_only_partial",
    "Diminuto.Number.number_port2string",
    "Diminuto.Number.number_port_round_trip",
    "Diminuto.Number.number_empty_counterexample",
    "Diminuto.Number.number_negative_counterexample",
    "Diminuto.Number.number_port_negative_counterexample",
    "Diminuto.Number.number_port_octal_counterexample"
   ],
   "note": "Exact except that the empty string is accepted as zero, that an unsigned number may have a minus, and hence that a port may."
  },
  {
   "property": "C81",
   "status": "partial",
   "theorems": [
    "Diminuto.Walker.walker_defined",
    "Diminuto.Walker.walker_visits",
    "Diminuto.Walker.walker_errors",
    "Diminuto.Walker.walker_no_root",
    "Diminuto.Walker.walker_closedir_counterexample",
    "Diminuto.Walker.walker_longest_counterexample"
   ],
   "note": "Visits are exact for every file system whose paths are at most 4094 characters long.  False: what the callback returned to stop the walk is lost if closedir fails then; a path of 4095 characters is refused."
  },
  {
   "property": "C82",
   "status": "partial",
   "theorems": [
    "Diminuto.Mkdir.mkdir_components",
    "Diminuto.Mkdir.mkdir_calls",
    "Diminuto.Mkdir.mkdir_calls_directory",
    "Diminuto.Mkdir.mkdir_nothing",
    "Diminuto.Mkdir.mkdir_makes_partial",
    "Diminuto.Mkdir.mkdir_succeeds",
    "Diminuto.Mkdir.mkdir_file_counterexample"
   ],
   "note": "The calls are exact for every path and every mkdir.  False: if the last object exists and is a file, 0 is returned."
  },
  {
   "property": "C83",
   "status": "partial",
   "theorems": [
    "Diminuto.Mkdir.path_scan_partial",
    "Diminuto.Mkdir.path_scan_counterexample",
    "Diminuto.Mkdir.path_find"
   ],
   "note": "Proved if no candidate has 4096 characters or more; such a candidate ends the search."
  },
  {
   "property": "C84",
   "status": "partial",
   "theorems": [
    "Diminuto.Walker.walker_mode2type",
    "Diminuto.Walker.walker_type9_counterexample"
   ],
   "note": "Proved for all modes; but the enumerator for kind 9 is defined as the character 0 in the header."
  },
  {
   "property": "C85",
   "status": "partial",
   "theorems": [
    "Diminuto.EndpointText.endpoint_text_shows",
    "Diminuto.EndpointText.endpoint_text_unspecified",
    "Diminuto.EndpointText.endpoint_text_apart_partial",
    "Diminuto.EndpointText.endpoint_text_apart_counterexample",
    "Diminuto.EndpointText.endpoint_text_round_trip_partial",
    "Diminuto.EndpointText.endpoint_text_any_counterexample",
    "Diminuto.EndpointText.endpoint_text_syntax_counterexample",
    "Diminuto.EndpointText.endpoint_text_local_partial"
   ],
   "note": "The text is exact for all IPv4 and IPv6 endpoints.  Texts are different, and read back, if there is one address other than zero and the ports are equal; false otherwise: without an address the family is lost, and with two ports or two addresses the text is no endpoint for the parser."
  },
  {
   "property": "C86",
   "status": "partial",
   "theorems": [
    "Diminuto.Ipcl.ipcl_path_partial",
    "Diminuto.Ipcl.ipcl_path_absolute",
    "Diminuto.Ipcl.ipcl_path_unnamed",
    "Diminuto.Ipcl.ipcl_path_root_counterexample",
    "Diminuto.Ipcl.ipcl_path_idempotent_partial",
    "Diminuto.Ipcl.ipcl_path_dots_counterexample",
    "Diminuto.Ipcl.ipcl_path2string_partial",
    "Diminuto.Ipcl.ipcl_path2string_counterexample",
    "Diminuto.Ipcl.ipcl_address_partial",
    "Diminuto.Ipcl.ipcl_address_counterexample",
    "Diminuto.Ipcl.ipcl_address_accepted_counterexample",
    "Diminuto.Ipcl.ipcl_identify_partial",
    "Diminuto.Ipcl.ipcl_identify_none",
    "Diminuto.Ipcl.ipcl_identify_counterexample",
    "Diminuto.Ipcl.ipcl_source",
    "Diminuto.Ipcl.ipcl_compare",
    "Diminuto.Ipcl.ipcl_compare_null_counterexample"
   ],
   "note": "Proved for paths not right below the root (undefined behaviour there) and addresses of at most 108 characters (longer ones are cut, so another path is used)."
  },
  {
   "property": "C87",
   "status": "partial",
   "theorems": [
    "Diminuto.Socket.socket_provider4_partial",
    "Diminuto.Socket.socket_consumer4_partial",
    "Diminuto.Socket.socket_peer4_partial",
    "Diminuto.Socket.socket_provider6_partial",
    "Diminuto.Socket.socket_consumer6_partial",
    "Diminuto.Socket.socket_peer6_partial",
    "Diminuto.Socket.socket_providerl_partial",
    "Diminuto.Socket.socket_consumerl_partial",
    "Diminuto.Socket.socket_peerl_partial",
    "Diminuto.Socket.socket_local_null",
    "Diminuto.Socket.socket_left_counterexample",
    "Diminuto.Socket.socket_null_counterexample",
    "Diminuto.Socket.socket_interface_counterexample"
   ],
   "note": "No descriptor is ever left open.  False: if connect or listen fails for a local socket that has been bound, its path is left in the file system; names of interfaces of more than 15 and paths of more than 108 characters are cut; a null path of a local provider is undefined behaviour for a consumer."
  },
  {
   "property": "C88",
   "status": "partial",
   "theorems": [
    "Diminuto.Interfaces.interfaces_firsts",
    "Diminuto.Interfaces.interfaces_partial",
    "Diminuto.Interfaces.interfaces_error",
    "Diminuto.Interfaces.interfaces_memory_counterexample",
    "Diminuto.Interfaces.interfaces_addresses4_partial",
    "Diminuto.Interfaces.interfaces_addresses6_partial",
    "Diminuto.Interfaces.interfaces_missing_counterexample",
    "Diminuto.Interfaces.interfaces_zero_counterexample",
    "Diminuto.Interfaces.interfaces_null_counterexample"
   ],
   "note": "Proved if malloc succeeds.  False: without memory a null pointer is written to; an unknown interface gives an empty array instead of NULL; an address of zero ends the array."
  },
  {
   "property": "C89",
   "status": "proved",
   "theorems": [
    "Diminuto.Options.options_status",
    "Diminuto.Options.options_status_succeeds",
    "Diminuto.Options.options_socket",
    "Diminuto.Options.options_buffers",
    "Diminuto.Options.options_control",
    "Diminuto.Options.options_linger_value",
    "Diminuto.Options.options_linger"
   ],
   "note": "For system calls that set the option or fail without effect."
  },
  {
   "property": "C90",
   "status": "partial",
   "theorems": [
    "Diminuto.Line.line_find",
    "Diminuto.Line.line_find_closes",
    "Diminuto.Line.line_find_genuine",
    "Diminuto.Line.line_find_cut_counterexample"
   ],
   "note": "Proved, except that a path that is too long for the buffer is cut and the result is success."
  },
  {
   "property": "C91",
   "status": "partial",
   "theorems": [
    "Diminuto.Line.line_parse_path",
    "Diminuto.Line.line_parse_path_refused",
    "Diminuto.Line.line_parse_documented_partial",
    "Diminuto.Line.line_parse_name",
    "Diminuto.Line.line_parse_sign_counterexample",
    "Diminuto.Line.line_parse_root_counterexample"
   ],
   "note": "What is accepted is characterised exactly.  False: white space and a second sign are accepted after the sign; for a path right below the root the behaviour is undefined."
  },
  {
   "property": "C92",
   "status": "partial",
   "theorems": [
    "Diminuto.LineRequest.line_open",
    "Diminuto.LineRequest.line_open_refused",
    "Diminuto.LineRequest.line_open_full_counterexample",
    "Diminuto.LineRequest.line_close",
    "Diminuto.LineRequest.line_get_generic",
    "Diminuto.LineRequest.line_put_generic",
    "Diminuto.LineRequest.line_get",
    "Diminuto.LineRequest.line_put_partial",
    "Diminuto.LineRequest.line_put_get",
    "Diminuto.LineRequest.line_put_negative_counterexample",
    "Diminuto.LineRequest.line_read"
   ],
   "note": "False: 64 lines, for which there is room, are refused; a negative state that has been put is returned like an error."
  },
  {
   "property": "C93",
   "status": "proved",
   "theorems": [
    "Diminuto.Delay.delay_lasts",
    "Diminuto.Delay.delay_returns",
    "Diminuto.Delay.delay_negative",
    "Diminuto.Delay.delay_asks"
   ],
   "note": "nanosleep(2) is any function that sleeps at least what it is asked for, less what it stores when interrupted."
  },
  {
   "property": "C94",
   "status": "partial",
   "theorems": [
    "Diminuto.Map.map_maps_partial",
    "Diminuto.Map.map_wraps_counterexample",
    "Diminuto.Map.unmap_undoes",
    "Diminuto.Map.map_closes",
    "Diminuto.Map.minimum_sets",
    "Diminuto.Map.minimum_succeeds",
    "Diminuto.Map.minimum_closes_partial",
    "Diminuto.Map.minimum_twice_counterexample",
    "Diminuto.Map.minimum_silent_counterexample"
   ],
   "note": "False for lengths that wrap around; a descriptor is closed twice if the stream cannot be closed; a file that cannot be opened is reported as success."
  },
  {
   "property": "C95",
   "status": "partial",
   "theorems": [
    "Diminuto.FdMap.map_new_partial",
    "Diminuto.FdMap.map_store",
    "Diminuto.FdMap.map_memory_counterexample",
    "Diminuto.FdMap.map_wraps_counterexample",
    "Diminuto.FdMap.map_unlimited_counterexample"
   ],
   "note": "False if there is no memory (the null pointer is dereferenced) and for counts for which the size wraps around, as that for an unlimited number."
  },
  {
   "property": "C96",
   "status": "partial",
   "theorems": [
    "Diminuto.FdMap.expand_partial",
    "Diminuto.FdMap.expand_fits",
    "Diminuto.FdMap.expand_cut_counterexample"
   ],
   "note": "A path that does not fit is cut and success is returned."
  },
  {
   "property": "C97",
   "status": "partial",
   "theorems": [
    "Diminuto.Pin.pin_configure",
    "Diminuto.Pin.pin_configure_negative",
    "Diminuto.Pin.pin_settings",
    "Diminuto.Pin.pin_setup",
    "Diminuto.Pin.pin_setup_succeeds",
    "Diminuto.Pin.pin_unused",
    "Diminuto.Pin.pin_put",
    "Diminuto.Pin.pin_put_short_counterexample",
    "Diminuto.Pin.pin_put_get",
    "Diminuto.Pin.pin_get",
    "Diminuto.Pin.pin_edges",
    "Diminuto.Pin.pin_debug",
    "Diminuto.Pin.pin_delay_counterexample",
    "Diminuto.Pin.pin_leak_counterexample",
    "Diminuto.Pin.pin_unused_counterexample",
    "Diminuto.Pin.pin_cut_counterexample"
   ],
   "note": "False: the argument for the delay is ignored, a failed setup leaves the pin exported, a pin that is not exported cannot be given up, names that are too long are cut."
  },
  {
   "property": "C98",
   "status": "proved",
   "theorems": [
    "Diminuto.I2c.i2c_serial",
    "Diminuto.I2c.i2c_exclusive",
    "Diminuto.I2c.i2c_progress"
   ],
   "note": "The threads use the composite operations; a system call that fails returns -1."
  },
  {
   "property": "C99",
   "status": "partial",
   "theorems": [
    "Diminuto.I2c.i2c_succeeds",
    "Diminuto.I2c.i2c_transfers",
    "Diminuto.I2c.i2c_get",
    "Diminuto.I2c.i2c_send",
    "Diminuto.I2c.i2c_messages",
    "Diminuto.I2c.i2c_set_counterexample",
    "Diminuto.I2c.i2c_zero_counterexample",
    "Diminuto.I2c.i2c_open_partial",
    "Diminuto.I2c.i2c_open_counterexample"
   ],
   "note": "False: a register is not set for devices that take its number and the data in one message; success is not zero as documented; bus 100 is bus 10."
  },
  {
   "property": "C100",
   "status": "proved",
   "theorems": [
    "Diminuto.Section.section_serial",
    "Diminuto.Section.section_exclusive",
    "Diminuto.Section.section_progress",
    "Diminuto.Section.atomic_apply_adds"
   ],
   "note": "Any body, any number of threads.  Locking does not fail and is not recursive; a body that blocks or locks the mutex again is outside of the model."
  },
  {
   "property": "C101",
   "status": "partial",
   "theorems": [
    "Diminuto.Log.log_priority_bit",
    "Diminuto.Log.log_priority_other",
    "Diminuto.Log.log_enabled",
    "Diminuto.Log.log_default",
    "Diminuto.Log.log_setmask",
    "Diminuto.Log.log_setmask_other_partial",
    "Diminuto.Log.log_setmask_empty_counterexample",
    "Diminuto.Log.log_setmask_range_counterexample",
    "Diminuto.Log.log_maskpath",
    "Diminuto.Log.log_importmask",
    "Diminuto.Log.log_importmask_file",
    "Diminuto.Log.log_importmask_other_partial",
    "Diminuto.Log.log_importmask_other_counterexample"
   ],
   "note": "An empty value, a blank first line and numbers of more than 32 bits set other masks, mostly 0, which disables all messages (counterexamples)."
  },
  {
   "property": "C102",
   "status": "partial",
   "theorems": [
    "Diminuto.Log.log_message",
    "Diminuto.Log.log_message_line",
    "Diminuto.Log.log_write_ends",
    "Diminuto.Log.log_delivered_partial",
    "Diminuto.Log.log_delivered_all",
    "Diminuto.Log.log_delivered_counterexample",
    "Diminuto.Log.log_contiguous"
   ],
   "note": "A failure of write(2), also EINTR, is taken for success: the rest of the message is dropped and not counted (counterexample)."
  },
  {
   "property": "C103",
   "status": "partial",
   "theorems": [
    "Diminuto.Log.log_route_partial",
    "Diminuto.Log.log_route_hangs",
    "Diminuto.Log.log_route_counterexample",
    "Diminuto.Log.log_interactive",
    "Diminuto.Log.log_never_back",
    "Diminuto.Log.log_errno"
   ],
   "note": "With the automatic strategy and a closed log descriptor the first message never returns (counterexample; it is the only case)."
  },
  {
   "property": "C104",
   "status": "proved",
   "theorems": [
    "Diminuto.Log.log_stream_descriptor",
    "Diminuto.Log.log_stream_closes"
   ],
   "note": "The file numbers of streams are arbitrary."
  },
  {
   "property": "C105",
   "status": "proved",
   "theorems": [
    "Diminuto.Log.log_stamps_sort",
    "Diminuto.Log.log_stamps_distinct",
    "Diminuto.Log.log_stamps_none",
    "Diminuto.Log.log_header_tells",
    "Diminuto.Log.log_priority_name"
   ],
   "note": "With the proleptic Gregorian calendar of Verif/Time.lean for gmtime_r(3)."
  },
  {
   "property": "C106",
   "status": "partial",
   "theorems": [
    "Diminuto.Basics.bits_get",
    "Diminuto.Basics.bits_set",
    "Diminuto.Basics.bits_clear",
    "Diminuto.Basics.bits_count",
    "Diminuto.Basics.bits_get_signed_counterexample"
   ],
   "note": "Proved for unsigned types.  For a signed type the most significant bit yields -1 (counterexample)."
  },
  {
   "property": "C107",
   "status": "partial",
   "theorems": [
    "Diminuto.Basics.swap_swaps",
    "Diminuto.Basics.swap_counterexample",
    "Diminuto.Basics.absolute_partial",
    "Diminuto.Basics.absolute_counterexample",
    "Diminuto.Basics.minmax_unsigned",
    "Diminuto.Basics.minmax_signed_partial",
    "Diminuto.Basics.minmax_counterexample"
   ],
   "note": "A variable swapped with itself becomes 0; the absolute value of the least value is negative or undefined; the minimum of wide signed types is undefined in standard C."
  },
  {
   "property": "C108",
   "status": "partial",
   "theorems": [
    "Diminuto.Basics.compare_strings",
    "Diminuto.Basics.compare_strings_order",
    "Diminuto.Basics.compare_pointers_partial",
    "Diminuto.Basics.compare_pointers_counterexample"
   ],
   "note": "Strings: proved.  Pointers: only if less than 2 GB apart, since the difference is converted to int."
  },
  {
   "property": "C109",
   "status": "partial",
   "theorems": [
    "Diminuto.Basics.testify_words",
    "Diminuto.Basics.testify_otherwise",
    "Diminuto.Basics.testify_number_partial",
    "Diminuto.Basics.testify_garbage",
    "Diminuto.Basics.testify_number_counterexample"
   ],
   "note": "Multiples of 2^32 are false."
  },
  {
   "property": "C110",
   "status": "partial",
   "theorems": [
    "Diminuto.Serial.serial_set_refuses",
    "Diminuto.Serial.serial_not_terminal",
    "Diminuto.Serial.serial_set_partial",
    "Diminuto.Serial.serial_set_success",
    "Diminuto.Serial.serial_set_counterexample"
   ],
   "note": "For a driver that sets all or fails.  tcsetattr(3) may succeed with some of the settings and they are not read back (counterexample)."
  },
  {
   "property": "C111",
   "status": "proved",
   "theorems": [
    "Diminuto.Serial.serial_raw",
    "Diminuto.Serial.serial_status",
    "Diminuto.Serial.serial_available"
   ],
   "note": "For a driver that sets all or fails."
  },
  {
   "property": "C112",
   "status": "partial",
   "theorems": [
    "Diminuto.Daemon.daemon_success",
    "Diminuto.Daemon.daemon_failure_partial",
    "Diminuto.Daemon.daemon_done",
    "Diminuto.Daemon.daemon_grandchild",
    "Diminuto.Daemon.daemon_exits_partial",
    "Diminuto.Daemon.daemon_ends",
    "Diminuto.Daemon.daemon_proceeds",
    "Diminuto.Daemon.daemon_ignored_counterexample",
    "Diminuto.Daemon.daemon_ignored_never",
    "Diminuto.Daemon.daemon_killed_counterexample",
    "Diminuto.Daemon.daemon_exits_counterexample",
    "Diminuto.Daemon.daemon_orphan_counterexample"
   ],
   "note": "Success: proved.  With SIGCHLD ignored, or a child that is killed, failure is reported although the daemon runs; a child of process 1 gets no daemon and does not exit."
  },
  {
   "property": "C113",
   "status": "partial",
   "theorems": [
    "Diminuto.Sanitize.sanitize_partial",
    "Diminuto.Sanitize.sanitize_system",
    "Diminuto.Sanitize.sanitize_context",
    "Diminuto.Sanitize.sanitize_full_counterexample",
    "Diminuto.Sanitize.sanitize_null_counterexample",
    "Diminuto.Sanitize.sanitize_moved_counterexample",
    "Diminuto.Sanitize.sanitize_mode_counterexample"
   ],
   "note": "For processes with their standard streams in place and one more descriptor; otherwise the terminal is kept, or behaviour is undefined (counterexamples)."
  },
  {
   "property": "C114",
   "status": "partial",
   "theorems": [
    "Diminuto.Spin.spin_exclusive",
    "Diminuto.Spin.spin_serial_partial",
    "Diminuto.Spin.spin_try_partial",
    "Diminuto.Spin.spin_progress_partial",
    "Diminuto.Spin.spin_cancel_never",
    "Diminuto.Spin.spin_cancel_counterexample"
   ],
   "note": "Exclusion is proved for every execution. Serial equivalence, trying and progress are proved for threads that are not cancelled in a section; refuted for cancellation: the lock stays set for ever."
  },
  {
   "property": "C115",
   "status": "partial",
   "theorems": [
    "Diminuto.Mask.mask_restored",
    "Diminuto.Mask.mask_blocked_partial",
    "Diminuto.Mask.mask_invalid",
    "Diminuto.Mask.mask_lossless",
    "Diminuto.Mask.mask_once",
    "Diminuto.Mask.mask_kill_counterexample",
    "Diminuto.Mask.mask_twice_counterexample"
   ],
   "note": "Refuted for SIGKILL and SIGSTOP, which are accepted without error and are not held back, and for counting: a signal that arrives twice is handled once. Everything else is proved."
  },
  {
   "property": "C116",
   "status": "partial",
   "theorems": [
    "Diminuto.Condition.condition_exclusive",
    "Diminuto.Condition.condition_results",
    "Diminuto.Condition.condition_wait",
    "Diminuto.Condition.condition_broadcast",
    "Diminuto.Condition.condition_handoff",
    "Diminuto.Condition.condition_handoff_progress",
    "Diminuto.Condition.condition_unlocked_partial",
    "Diminuto.Condition.condition_nested_never",
    "Diminuto.Condition.condition_nested_counterexample",
    "Diminuto.Condition.condition_time_partial",
    "Diminuto.Condition.condition_time_counterexample"
   ],
   "note": "Refuted for a wait with the recursive mutex locked twice, which keeps the mutex, and for times of 2^63 and more other than infinity, which become negative. Everything else is proved."
  },
  {
   "property": "C117",
   "status": "proved",
   "theorems": [
    "Diminuto.Tree.store_find_close"
   ],
   "note": "Proved for every reachable store."
  },
  {
   "property": "C118",
   "status": "partial",
   "theorems": [
    "Diminuto.Ping6.ping6_in_bounds",
    "Diminuto.Ping6.ping6_accepts",
    "Diminuto.Ping6.ping6_round_trip",
    "Diminuto.Ping6.ping6_request",
    "Diminuto.Ping6.ping6_elapsed_partial",
    "Diminuto.Ping6.ping6_elapsed_counterexample"
   ],
   "note": "Refuted for the elapsed time, which is stored for replies that are too short too. Everything else is proved."
  },
  {
   "property": "C119",
   "status": "partial",
   "theorems": [
    "Diminuto.Reaper.reaper_exactly_once",
    "Diminuto.Reaper.reaper_call",
    "Diminuto.Reaper.reaper_drain",
    "Diminuto.Reaper.reaper_not_forgotten",
    "Diminuto.Reaper.reaper_once_counterexample",
    "Diminuto.Reaper.reaper_wait_partial",
    "Diminuto.Reaper.reaper_wait_counterexample"
   ],
   "note": "Refuted for diminuto_reaper_wait without children, which returns zero. Everything else is proved; that a program which reaps once for each check forgets children is proved too."
  },
  {
   "property": "C120",
   "status": "partial",
   "theorems": [
    "Diminuto.Realtime.realtime_number_partial",
    "Diminuto.Realtime.realtime_number_counterexample",
    "Diminuto.Realtime.realtime_other",
    "Diminuto.Realtime.realtime_error",
    "Diminuto.Realtime.realtime_empty_partial",
    "Diminuto.Realtime.realtime_empty_counterexample",
    "Diminuto.Realtime.realtime_path",
    "Diminuto.Realtime.realtime_null"
   ],
   "note": "Refuted for numbers that an int cannot have, and, with libraries that do not set errno to zero, for empty files. Everything else is proved."
  },
  {
   "property": "C121",
   "status": "partial",
   "theorems": [
    "Diminuto.Module.module_load",
    "Diminuto.Module.module_handle_partial",
    "Diminuto.Module.module_handle_counterexample",
    "Diminuto.Module.module_unload",
    "Diminuto.Module.module_unload_closed",
    "Diminuto.Module.module_force_glibc",
    "Diminuto.Module.module_force_counterexample",
    "Diminuto.Module.module_force_busy",
    "Diminuto.Module.module_force_ignored"
   ],
   "note": "Refuted for diminuto_module_handle with glibc, which returns null for every module, and for the forced unload by POSIX alone, which always closes a handle that is closed. Everything else is proved."
  },
  {
   "property": "C122",
   "status": "proved",
   "theorems": [
    "Diminuto.Driver.driver_read",
    "Diminuto.Driver.driver_change",
    "Diminuto.Driver.driver_set_or",
    "Diminuto.Driver.driver_failure",
    "Diminuto.Driver.driver_refuses",
    "Diminuto.Driver.driver_fault",
    "Diminuto.Driver.driver_atomic"
   ],
   "note": "Proved for every argument and every interleaving."
  },
  {
   "property": "C123",
   "status": "partial",
   "theorems": [
    "Diminuto.Driver.driver_inside_partial",
    "Diminuto.Driver.driver_near",
    "Diminuto.Driver.driver_inside_counterexample",
    "Diminuto.Driver.driver_undefined_iff"
   ],
   "note": "Refuted: a word that begins at or shortly before the end of the registers is accessed although it reaches beyond it, and a command that transfers nothing from the application lets the driver use a structure that has not been initialised. Proved for words inside, and exactly when the behaviour is undefined."
  },
  {
   "property": "C124",
   "status": "partial",
   "theorems": [
    "Diminuto.KernelMap.map_aligned",
    "Diminuto.KernelMap.map_exclusive",
    "Diminuto.KernelMap.driver_load",
    "Diminuto.KernelMap.driver_unload_partial",
    "Diminuto.KernelMap.driver_fail_partial",
    "Diminuto.KernelMap.driver_fail_counterexample",
    "Diminuto.KernelMap.free_counterexample",
    "Diminuto.KernelMap.driver_unload_counterexample",
    "Diminuto.KernelMap.map_fail_counterexample"
   ],
   "note": "Refuted: a region given exclusively is never released, and the miscellaneous device stays registered when the last step of loading fails. Proved without exclusiveness, and for failures with a major number."
  },
  {
   "property": "C125",
   "status": "proved",
   "theorems": [
    "Diminuto.Uboot.uboot_crc",
    "Diminuto.Uboot.uboot_crc_carries",
    "Diminuto.Uboot.uboot_crc_burst",
    "Diminuto.Uboot.uboot_crc_longer_counterexample"
   ],
   "note": "Proved for every data. The counterexample shows that 32 bits is the limit: there are changes within 33 bits that are not seen."
  },
  {
   "property": "C126",
   "status": "partial",
   "theorems": [
    "Diminuto.Uboot.uboot_lists",
    "Diminuto.Uboot.uboot_lists_only",
    "Diminuto.Uboot.uboot_looks_up_partial",
    "Diminuto.Uboot.uboot_looks_up_prefix",
    "Diminuto.Uboot.uboot_looks_up_counterexample",
    "Diminuto.Uboot.uboot_mismatch",
    "Diminuto.Uboot.uboot_corrupt",
    "Diminuto.Uboot.uboot_malformed_counterexample",
    "Diminuto.Uboot.uboot_status"
   ],
   "note": "The listing is proved in both directions. The look up is false as stated: the value of an entry is printed whose name is only the beginning of the wanted one; proved if there is no such entry. Entries without an equals sign and data without a NUL make the behaviour undefined although the checksum matches."
  },
  {
   "property": "C127",
   "status": "partial",
   "theorems": [
    "Diminuto.Wipe.wipe_success",
    "Diminuto.Wipe.wipe_failures",
    "Diminuto.Wipe.wipe_completes_partial",
    "Diminuto.Wipe.wipe_tail_counterexample",
    "Diminuto.Wipe.wipe_zero_counterexample",
    "Diminuto.Wipe.wipe_modulo_counterexample"
   ],
   "note": "The meaning of a status of zero is proved for every device that can be read, except that up to seven bytes at the end are not verified. That every byte is replaced is proved for devices that write what they have space for, and for those that write everything or nothing if the sector divides the capacity; it is false otherwise. A size of zero in the options is a division by zero."
  },
  {
   "property": "C128",
   "status": "partial",
   "theorems": [
    "Diminuto.Wipe.wipe_distinct",
    "Diminuto.Wipe.wipe_alias",
    "Diminuto.Wipe.wipe_nibble",
    "Diminuto.Wipe.wipe_offset_partial",
    "Diminuto.Wipe.wipe_offset_counterexample"
   ],
   "note": "That the words differ is proved for every seed, with the exact period. The offsets that are reported are wrong: they are mirrored within the block, which is proved as a formula."
  },
  {
   "property": "C129",
   "status": "partial",
   "theorems": [
    "Diminuto.ShaperTool.shaper_sustained",
    "Diminuto.ShaperTool.shaper_peak_partial",
    "Diminuto.ShaperTool.shaper_peak_counterexample",
    "Diminuto.ShaperTool.shaper_unshaped_counterexample",
    "Diminuto.ShaperTool.shaper_unshaped_rate",
    "Diminuto.ShaperTool.shaper_waits"
   ],
   "note": "The bounds are proved for all runs, on the times at which blocks are committed. The one for the peak rate fails if the sustained rate is higher and there is no maximum burst size, and without a rate the tool shapes to one byte in a second."
  },
  {
   "property": "C130",
   "status": "partial",
   "theorems": [
    "Diminuto.ShaperTool.shaper_data_partial",
    "Diminuto.ShaperTool.shaper_data_counterexample"
   ],
   "note": "Proved for readers that take at least one byte of each write; false for one whose failures come after part of a block."
  },
  {
   "property": "C131",
   "status": "partial",
   "theorems": [
    "Diminuto.Dec.dec_command",
    "Diminuto.Dec.dec_prints_partial",
    "Diminuto.Dec.dec_pipe",
    "Diminuto.Dec.dec_swap",
    "Diminuto.Dec.dec_dash",
    "Diminuto.Dec.dec_refused",
    "Diminuto.Dec.dec_status",
    "Diminuto.Dec.dec_status_counterexample",
    "Diminuto.Dec.dec_long_counterexample"
   ],
   "note": "The lines and the composition are proved for all numbers. What a status of zero means is proved exactly, and is less than the property asks for: empty arguments, numbers that are too large, negative ones, and long lines are accepted."
  },
  {
   "property": "C132",
   "status": "partial",
   "theorems": [
    "Diminuto.Ipcalc.ipcalc_host",
    "Diminuto.Ipcalc.ipcalc_broadcast",
    "Diminuto.Ipcalc.ipcalc_netmask_partial",
    "Diminuto.Ipcalc.ipcalc_netmask_counterexample",
    "Diminuto.Ipcalc.ipcalc_arguments"
   ],
   "note": "Proved, except that addresses of the classes D and E, which have no mask, get that of class C. The conversions of the C library are arguments."
  },
  {
   "property": "C133",
   "status": "partial",
   "theorems": [
    "Diminuto.Memtool.memtool_follows_partial",
    "Diminuto.Memtool.memtool_prefix",
    "Diminuto.Memtool.memtool_invalid",
    "Diminuto.Memtool.memtool_ignored",
    "Diminuto.Memtool.memtool_unmaps",
    "Diminuto.Memtool.memtool_length_counterexample",
    "Diminuto.Memtool.memtool_bit_counterexample",
    "Diminuto.Memtool.memtool_size_counterexample",
    "Diminuto.Memtool.memtool_range_counterexample"
   ],
   "note": "Proved for sensible options: sizes are given before operations, objects are aligned and in the region, numbers of bits are smaller than the width, and the length of a region is not changed while it is in use. The program checks none of this, and counterexamples show what happens otherwise. That nothing is left mapped is proved for all options."
  },
  {
   "property": "C134",
   "status": "partial",
   "theorems": [
    "Diminuto.Memtool.memtool_styles_partial",
    "Diminuto.Memtool.memtool_styles_counterexample"
   ],
   "note": "Proved for all lists of operations without conditions that test an offset, the address or the length: the conditions test the last number of any option, which differs between the styles."
  },
  {
   "property": "C135",
   "status": "proved",
   "theorems": [
    "Diminuto.Conestoga.conestoga_frames"
   ],
   "note": "Proved for buffers of at most 65535 octets, which is what a frame can carry, as long as the tool runs."
  },
  {
   "property": "C136",
   "status": "partial",
   "theorems": [
    "Diminuto.Conestoga.conestoga_sound_partial",
    "Diminuto.Conestoga.conestoga_destinations_partial",
    "Diminuto.Conestoga.conestoga_complete_partial",
    "Diminuto.Conestoga.conestoga_through_partial",
    "Diminuto.Conestoga.conestoga_length_counterexample",
    "Diminuto.Conestoga.conestoga_client_twice_counterexample",
    "Diminuto.Conestoga.conestoga_overrun_counterexample",
    "Diminuto.Conestoga.conestoga_shared_counterexample",
    "Diminuto.Conestoga.conestoga_stall_counterexample"
   ],
   "note": "False as stated: the datagrams have the length of the frame on the line, at least eleven octets more than the frame carries, which may be beyond the buffer; a client sends each of them twice; a second frame that arrives with the first stays in the buffer of the stream until more arrives; and with one stream for both directions output follows input. Proved: each datagram begins with what a valid frame carries and goes to one of the two destinations, and valid frames are sent in their order, all of them once nothing is left in the buffer."
  },
  {
   "property": "C137",
   "status": "partial",
   "theorems": [
    "Diminuto.Conestoga.conestoga_stops_partial",
    "Diminuto.Conestoga.conestoga_empty_counterexample",
    "Diminuto.Conestoga.conestoga_first_counterexample"
   ],
   "note": "False as stated: an empty datagram stops it, and so does a frame before the first datagram. Proved: the complete list of the reasons."
  },
  {
   "property": "C138",
   "status": "partial",
   "theorems": [
    "Diminuto.Framertool.framertool_lines_partial",
    "Diminuto.Framertool.framertool_unterminated_counterexample",
    "Diminuto.Framertool.framertool_cut_counterexample",
    "Diminuto.Framertool.framertool_big_counterexample"
   ],
   "note": "False as stated: what follows the last newline is never written, a line that does not fit in the buffer is cut without a word, and with a buffer of more than 65535 octets (any size is taken by -B) a long line ends the tool. Proved for buffers of at most 65535 octets: the lines, cut to what fits, are written as valid frames in their order, and what is left is the beginning of a line and what has not been read."
  },
  {
   "property": "C139",
   "status": "partial",
   "theorems": [
    "Diminuto.Framertool.framertool_sound_partial",
    "Diminuto.Framertool.framertool_complete_partial",
    "Diminuto.Framertool.framertool_through_partial",
    "Diminuto.Framertool.framertool_repeat_counterexample",
    "Diminuto.Framertool.framertool_stall_counterexample"
   ],
   "note": "False as stated: after a failure of the output every octet that arrives makes the tool write the last frame again; and a second frame that arrives with the first stays in the buffer of the stream until more arrives. Proved: what is written is from valid frames, and whole as long as the output has not failed; valid frames are written in their order, all of them once nothing is left in the buffer; and from end to end."
  },
  {
   "property": "C140",
   "status": "partial",
   "theorems": [
    "Diminuto.Framertool.framertool_defined_partial",
    "Diminuto.Framertool.framertool_stops_partial",
    "Diminuto.Framertool.framertool_shared_counterexample"
   ],
   "note": "False by the standard of the language: one stream is used for both directions, and output follows input without a call that positions the stream. Proved if the two directions do not disturb each other, for buffers of at most 65535 octets: the behaviour is defined; and the complete list of the reasons for the end."
  },
  {
   "property": "C141",
   "status": "partial",
   "theorems": [
    "Diminuto.Pintool.pintool_pin_partial",
    "Diminuto.Pintool.pintool_streams",
    "Diminuto.Pintool.pintool_success_partial",
    "Diminuto.Pintool.pintool_defined_partial",
    "Diminuto.Pintool.pintool_root",
    "Diminuto.Pintool.pintool_ignored",
    "Diminuto.Pintool.pintool_pin_counterexample",
    "Diminuto.Pintool.pintool_edge_counterexample",
    "Diminuto.Pintool.pintool_defined_counterexample"
   ],
   "note": "False as stated: numbers of pins are cut to 32 bits and an empty one is zero; a failure of -B is ignored; a stream that cannot be closed is closed twice; and the product for the time of -m overflows. Proved for everything else; that there is one stream, which is closed at the end, is proved without a restriction."
  },
  {
   "property": "C142",
   "status": "partial",
   "theorems": [
    "Diminuto.Pintool.pintool_values_partial",
    "Diminuto.Pintool.pintool_delay_partial",
    "Diminuto.Pintool.pintool_timeout_partial",
    "Diminuto.Pintool.pintool_values_counterexample",
    "Diminuto.Pintool.pintool_delay_counterexample"
   ],
   "note": "False as stated: a stream is open either for reading or for writing, and is kept for the other, which then fails; and delays of more than five hours wrap. Proved for options that do not read and write a pin before another -p."
  },
  {
   "property": "C143",
   "status": "partial",
   "theorems": [
    "Diminuto.Pintool.pintool_debounces",
    "Diminuto.Pintool.pintool_monitors_partial",
    "Diminuto.Pintool.pintool_settings",
    "Diminuto.Pintool.pintool_command_counterexample"
   ],
   "note": "False as stated for commands that do not fit into the buffer of 1024 characters, which are cut and run. The rest is proved for all samples and failures."
  },
  {
   "property": "C144",
   "status": "partial",
   "theorems": [
    "Diminuto.Linetool.linetool_lines",
    "Diminuto.Linetool.linetool_success_partial",
    "Diminuto.Linetool.linetool_unknown",
    "Diminuto.Linetool.linetool_context",
    "Diminuto.Linetool.linetool_opens",
    "Diminuto.Linetool.linetool_defined_partial",
    "Diminuto.Linetool.linetool_line_counterexample",
    "Diminuto.Linetool.linetool_flags_counterexample",
    "Diminuto.Linetool.linetool_success_counterexample",
    "Diminuto.Linetool.linetool_delay_counterexample"
   ],
   "note": "False as stated: -D, -P and -p do not close the line as the help says, so that the line in use is not that of the context; flags for both directions or edges add up; a failure of the last close is ignored; and the product for a time overflows. That the line is opened with what has been asked for, that there is one at a time, and that it is closed, are proved without a restriction."
  },
  {
   "property": "C145",
   "status": "partial",
   "theorems": [
    "Diminuto.Linetool.linetool_values_partial",
    "Diminuto.Linetool.linetool_delay_partial",
    "Diminuto.Linetool.linetool_values_counterexample",
    "Diminuto.Linetool.linetool_delay_counterexample"
   ],
   "note": "Proved for all options whose arguments are numbers that fit; an empty argument is taken for zero, and the product for long delays is not defined."
  },
  {
   "property": "C146",
   "status": "partial",
   "theorems": [
    "Diminuto.Linetool.linetool_debounces",
    "Diminuto.Linetool.linetool_monitors_partial",
    "Diminuto.Linetool.linetool_pipe_partial",
    "Diminuto.Linetool.linetool_timeout_counterexample",
    "Diminuto.Linetool.linetool_command_counterexample",
    "Diminuto.Linetool.linetool_pipe_counterexample"
   ],
   "note": "False as stated: a time of zero for -m does not poll but blocks; commands that do not fit into the buffer of 1024 characters are cut and run; options after a monitor are still done when the reader has gone, and after -m the signal remains blocked, so that a -b after it never ends. Proved for a monitor that comes last, for positive times and for commands that fit."
  },
  {
   "property": "C147",
   "status": "partial",
   "theorems": [
    "Diminuto.Serialtool.serialtool_options",
    "Diminuto.Serialtool.serialtool_port_partial",
    "Diminuto.Serialtool.serialtool_refuses",
    "Diminuto.Serialtool.serialtool_raw_counterexample",
    "Diminuto.Serialtool.serialtool_port_counterexample",
    "Diminuto.Serialtool.serialtool_rate_counterexample",
    "Diminuto.Serialtool.serialtool_modes_counterexample"
   ],
   "note": "False as stated: raw mode is set after everything else and undoes the data bits, the parity, the modem control and half of the software flow control, whatever has been asked for; -N and -c do not exclude -B and -F; rates are not checked to be numbers. Rate, stop bits, and hardware flow control are proved, and all of it for 8 bits without parity, modem and software flow control."
  },
  {
   "property": "C148",
   "status": "partial",
   "theorems": [
    "Diminuto.Serialtool.serialtool_forward",
    "Diminuto.Serialtool.serialtool_backward",
    "Diminuto.Serialtool.serialtool_loopback",
    "Diminuto.Serialtool.serialtool_stream_counterexample",
    "Diminuto.Serialtool.serialtool_exit_counterexample",
    "Diminuto.Serialtool.serialtool_count_counterexample"
   ],
   "note": "The loops are proved for all runs. False as stated: the exit code is zero even if the test has failed, characters that could not be sent are counted, and with devices that are not terminals, which are supported, both modes always abort."
  },
  {
   "property": "C149",
   "status": "partial",
   "theorems": [
    "Diminuto.Serialtool.serialtool_interactive_partial",
    "Diminuto.Serialtool.serialtool_copies",
    "Diminuto.Serialtool.serialtool_noinput_counterexample",
    "Diminuto.Serialtool.serialtool_interrupted_counterexample",
    "Diminuto.Serialtool.serialtool_maximum_counterexample"
   ],
   "note": "False as stated: with -i the tool never exits but aborts in the end; SIGHUP ends it; a partial write makes it abort and loses the rest; and so does -I 0. Proved: whatever was read has been written to the other end in all runs that exit or go on, and up to the action that failed in those that abort."
  },
  {
   "property": "C150",
   "status": "partial",
   "theorems": [
    "Diminuto.Datagram.datagram_send4",
    "Diminuto.Datagram.datagram_send6",
    "Diminuto.Datagram.datagram_receive4_partial",
    "Diminuto.Datagram.datagram_receive6_partial",
    "Diminuto.Datagram.datagram_receive_other",
    "Diminuto.Datagram.datagram_failed",
    "Diminuto.Datagram.datagram_reply4_partial",
    "Diminuto.Datagram.datagram_reply6_partial",
    "Diminuto.Datagram.datagram_end_partial",
    "Diminuto.Datagram.datagram_empty_counterexample",
    "Diminuto.Datagram.datagram_stale_counterexample",
    "Diminuto.Datagram.datagram_port_counterexample",
    "Diminuto.Datagram.datagram_scope_counterexample"
   ],
   "note": "False as stated: the sender of an empty datagram is not stored, so that an answer goes to whoever sent the one before; a datagram may come from port zero, and what is sent there has no destination; the scope of a link-local address is dropped. Proved for all other datagrams."
  },
  {
   "property": "C151",
   "status": "partial",
   "theorems": [
    "Diminuto.Datagram.datagram_sendl_partial",
    "Diminuto.Datagram.datagram_replyl_partial",
    "Diminuto.Datagram.datagram_endl_partial",
    "Diminuto.Datagram.datagram_long_counterexample",
    "Diminuto.Datagram.datagram_unnamed_counterexample",
    "Diminuto.Datagram.datagram_room_counterexample",
    "Diminuto.Datagram.datagram_full_counterexample"
   ],
   "note": "False as stated: a path of more than 108 characters is cut, and the datagram goes to another socket; the path is left as it was if the sender has no name; a path for which there is no room is cut; and one of 108 characters is read beyond the socket address. Proved for paths of at most 107 characters with room for them."
  },
  {
   "property": "C152",
   "status": "partial",
   "theorems": [
    "Diminuto.Datagram.resolve4_partial",
    "Diminuto.Datagram.resolve6_balanced",
    "Diminuto.Datagram.resolve6_first_partial",
    "Diminuto.Datagram.resolve4_counterexample",
    "Diminuto.Datagram.resolve6_counterexample"
   ],
   "note": "False as stated: for a host without an IPv4 address diminuto_ipc4_address copies from NULL, and if the first entry is of another family diminuto_ipc6_address returns zero although there are addresses. Proved for hosts as the C library has them, and otherwise if the first entry has an address."
  },
  {
   "property": "C153",
   "status": "partial",
   "theorems": [
    "Diminuto.Shaperbuffered.shaperbuffered_data_partial",
    "Diminuto.Shaperbuffered.shaperbuffered_refuses",
    "Diminuto.Shaperbuffered.shaperbuffered_data_counterexample",
    "Diminuto.Shaperbuffered.shaperbuffered_status_counterexample",
    "Diminuto.Shaperbuffered.shaperbuffered_delivery_counterexample"
   ],
   "note": "False as stated: what follows a zero byte in a line is lost with a status of zero; a line that begins with a zero byte, or a buffer for lines of one byte, is an error although no reading has failed; and a failure to write the buffer of the standard output at the end is not noticed. Proved for input that suits the mode, up to what the C library has accepted."
  },
  {
   "property": "C154",
   "status": "partial",
   "theorems": [
    "Diminuto.Shaperbuffered.shaperbuffered_sustained",
    "Diminuto.Shaperbuffered.shaperbuffered_peak_partial",
    "Diminuto.Shaperbuffered.shaperbuffered_peak_counterexample",
    "Diminuto.Shaperbuffered.shaperbuffered_unshaped"
   ],
   "note": "False as stated: with a sustained rate above the peak rate and no maximum burst size the peak rate is forgotten. Proved for all other options."
  },
  {
   "property": "C155",
   "status": "partial",
   "theorems": [
    "Diminuto.Logtool.logtool_arguments_partial",
    "Diminuto.Logtool.logtool_refuses",
    "Diminuto.Logtool.logtool_suppressed",
    "Diminuto.Logtool.logtool_input_partial",
    "Diminuto.Logtool.logtool_lines_partial",
    "Diminuto.Logtool.logtool_level_counterexample",
    "Diminuto.Logtool.logtool_input_counterexample",
    "Diminuto.Logtool.logtool_lines_counterexample",
    "Diminuto.Logtool.logtool_failure_counterexample"
   ],
   "note": "False as stated: without a level a notice is logged although notices are masked, as long as any more urgent level is not; with messages whose level is masked the standard input is read; lines with zero bytes are cut and lines longer than the buffer split, and with a buffer of one byte the tool never ends; a failure of the reading is not noticed. What happens in each of these cases is proved, and the claim for all others."
  },
  {
   "property": "C156",
   "status": "partial",
   "theorems": [
    "Diminuto.Metertool.metertool_data_partial",
    "Diminuto.Metertool.metertool_gone",
    "Diminuto.Metertool.metertool_data_counterexample"
   ],
   "note": "False as stated: if the kernel takes a part of a block and then fails the rest of the block is dropped, the tool goes on, and the status is zero. Proved for readers that take what they are given."
  },
  {
   "property": "C157",
   "status": "partial",
   "theorems": [
    "Diminuto.Metertool.metertool_report_partial",
    "Diminuto.Metertool.metertool_reports",
    "Diminuto.Metertool.metertool_report_counterexample"
   ],
   "note": "False as stated: what has been read and could not be written is counted. Proved for readers that take what they are given."
  },
  {
   "property": "C158",
   "status": "partial",
   "theorems": [
    "Diminuto.Metertool.metertool_signal_partial",
    "Diminuto.Metertool.metertool_signal_flushed",
    "Diminuto.Metertool.metertool_signal_counterexample"
   ],
   "note": "False as stated: interrupted while it waits for input, the tool goes on waiting. Proved for signals that come at any other time."
  },
  {
   "property": "C159",
   "status": "partial",
   "theorems": [
    "Diminuto.Zone.zone_local_partial",
    "Diminuto.Zone.zone_failure",
    "Diminuto.Zone.zone_local_counterexample"
   ],
   "note": "Proved for zones with one standard time and an hour more in the summer, and before the Epoch if the summer does not begin or end within the second. False for zones in which the clocks are set by half an hour, for times when the standard time was another one, and in the second of a change before the Epoch."
  },
  {
   "property": "C160",
   "status": "partial",
   "theorems": [
    "Diminuto.Zone.zulutool_partial",
    "Diminuto.Zone.juliettool_prints",
    "Diminuto.Zone.juliettool_partial",
    "Diminuto.Zone.juliettool_counterexample",
    "Diminuto.Zone.clocktools_failure_counterexample"
   ],
   "note": "Proved for the date and the time, and for offsets of whole hours to the east. False for all zones to the west, because the offset is compared as an unsigned number, for offsets that are not whole hours, because the minutes are in seconds, and if the clock cannot be read."
  },
  {
   "property": "C161",
   "status": "partial",
   "theorems": [
    "Diminuto.Zone.unitstool_partial",
    "Diminuto.Zone.unitstool_refuses",
    "Diminuto.Zone.unitstool_counterexample",
    "Diminuto.Zone.clocktools_failure_counterexample"
   ],
   "note": "Proved for units that are whole numbers of ticks. False for other units, and if the clock cannot be read."
  },
  {
   "property": "C162",
   "status": "partial",
   "theorems": [
    "Diminuto.Modset.modset_told",
    "Diminuto.Modset.modset_effect",
    "Diminuto.Modset.modset_returns_partial",
    "Diminuto.Modset.modset_stop_counterexample",
    "Diminuto.Modset.modset_two_counterexample",
    "Diminuto.Modset.modset_cycle_counterexample"
   ],
   "note": "That what has been asked for last is in effect on return is proved in full; the return within 256 firings for one thread at a time and without a stop. With two threads, one may never be woken; with a stop meanwhile, it waits for ever; and the duty cycle is taken over in the middle of a cycle, too."
  },
  {
   "property": "C163",
   "status": "partial",
   "theorems": [
    "Diminuto.Internettool.internettool_asked",
    "Diminuto.Internettool.internettool_near_port_partial",
    "Diminuto.Internettool.internettool_near_port_counterexample",
    "Diminuto.Internettool.internettool_far_port_partial",
    "Diminuto.Internettool.internettool_far_port_counterexample",
    "Diminuto.Internettool.internettool_opens",
    "Diminuto.Internettool.internettool_ping_counterexample",
    "Diminuto.Internettool.internettool_opens_defined",
    "Diminuto.Internettool.internettool_menu",
    "Diminuto.Internettool.internettool_refuses"
   ],
   "note": "Proved for family, protocol, addresses, interface, block size, menu and refusals. False for the far port of UDP (the service is always looked up for TCP), for the near port if the far endpoint changes the protocol afterwards, and for a ping through an interface, which reads freed memory."
  },
  {
   "property": "C164",
   "status": "partial",
   "theorems": [
    "Diminuto.Echo.echo_stream",
    "Diminuto.Echo.echo_stream_survives_partial",
    "Diminuto.Echo.echo_stream_progress",
    "Diminuto.Echo.echo_stream_counterexample",
    "Diminuto.Echo.echo_stream_blocks_counterexample",
    "Diminuto.Echo.echo_block_counterexample",
    "Diminuto.Echo.echo_datagrams4",
    "Diminuto.Echo.echo_datagrams6_partial",
    "Diminuto.Echo.echo_empty_counterexample",
    "Diminuto.Echo.echo_scope_counterexample"
   ],
   "note": "That what comes is returned is proved for streams and for datagrams of IPv4, and for IPv6 except for the interface. That no client can end the provider is false: a reset connection, one with a descriptor of 1024 or more, or an empty datagram do, and one that does not read stops it; a block of no bytes closes all connections. Names of IPv4 on a socket of IPv6 are left out."
  },
  {
   "property": "C165",
   "status": "partial",
   "theorems": [
    "Diminuto.Echo.echo_consumes",
    "Diminuto.Echo.echo_consumes_echo_partial",
    "Diminuto.Echo.echo_consumes_survives_partial",
    "Diminuto.Echo.echo_greeting_counterexample",
    "Diminuto.Echo.echo_closed_counterexample",
    "Diminuto.Echo.echo_nothing_counterexample",
    "Diminuto.Echo.echo_consumes4",
    "Diminuto.Echo.echo_consumes6",
    "Diminuto.Echo.echo_stranger_counterexample",
    "Diminuto.Echo.echo_lost_counterexample"
   ],
   "note": "Proved: what is sent and written, and when the tool ends, which is when as many bytes have come back as have been sent. That these are the ones that have been sent is true of a far end that sends nothing of its own, and false otherwise. A datagram from anybody with the right port is accepted; if one is lost the tool does not end."
  },
  {
   "property": "C166",
   "status": "partial",
   "theorems": [
    "Diminuto.Mmdrivertool.mmdrivertool_partial",
    "Diminuto.Mmdrivertool.mmdrivertool_defined",
    "Diminuto.Mmdrivertool.mmdrivertool_bit_counterexample",
    "Diminuto.Mmdrivertool.mmdrivertool_shift_counterexample",
    "Diminuto.Mmdrivertool.mmdrivertool_junk_counterexample",
    "Diminuto.Mmdrivertool.mmdrivertool_result_counterexample",
    "Diminuto.Mmdrivertool.mmdrivertool_behind_counterexample"
   ],
   "note": "Proved bit by bit for all sequences of options, for both orders of bytes. Not so: the result of a test after a write, set or clear is the argument and not the register; after the size has been changed it is not determined; a bit of 64 or more is undefined behaviour, and one beyond the word is ignored; a word right behind the registers is accepted by the driver."
  },
  {
   "property": "C167",
   "status": "partial",
   "theorems": [
    "Diminuto.Gram.gram_send4",
    "Diminuto.Gram.gram_send6",
    "Diminuto.Gram.gram_receive4",
    "Diminuto.Gram.gram_receive6_partial",
    "Diminuto.Gram.gram_failed_counterexample",
    "Diminuto.Gram.gram_unsound_counterexample",
    "Diminuto.Gram.gram_message"
   ],
   "note": "Proved of sending and receiving, after any history. For IPv6 the interface is lost. False: if receiving fails, the address and the port are set to zero; a record that cannot be transferred gives the same result as an empty datagram."
  },
  {
   "property": "C168",
   "status": "partial",
   "theorems": [
    "Diminuto.Itimer.setitimer_documented_partial",
    "Diminuto.Itimer.setitimer_first_periodicity",
    "Diminuto.Itimer.setitimer_sounds",
    "Diminuto.Itimer.setitimer_left",
    "Diminuto.Itimer.periodicity_counterexample",
    "Diminuto.Itimer.cancel_counterexample"
   ],
   "note": "Proved of calls that all ask for the same periodicity and for less than 2^63 ticks; for others of less than 2^63 ticks the periodicity is that of the call which made the timer. False: that the periodicity is that of the latest call; that after a failed call for too many ticks a periodic timer can be cancelled."
  },
  {
   "property": "C169",
   "status": "partial",
   "theorems": [
    "Diminuto.Making.timer_init_partial",
    "Diminuto.Making.timer_init_result",
    "Diminuto.Making.timer_init_scheduled",
    "Diminuto.Making.timer_generic",
    "Diminuto.Making.timer_init_leak_counterexample",
    "Diminuto.Making.timer_fini",
    "Diminuto.Making.timer_round",
    "Diminuto.Making.timer_fini_again_counterexample",
    "Diminuto.Making.thread_init_counterexample",
    "Diminuto.Making.thread_init_partial",
    "Diminuto.Making.thread_generic_partial",
    "Diminuto.Making.thread_fini",
    "Diminuto.Making.thread_fini_other",
    "Diminuto.Making.window_partial",
    "Diminuto.Making.window_counterexample"
   ],
   "note": "False: that a failed initialization leaves nothing behind, that a failed finalization can be made again, that initializing a thread is defined (attributes are not initialized; proved if zeros are as good), and that the window is longer than any interval."
  },
  {
   "property": "C170",
   "status": "partial",
   "theorems": [
    "Diminuto.Strdup.strdup_copies",
    "Diminuto.Strdup.strndup_copies",
    "Diminuto.Strdup.strdup_undefined",
    "Diminuto.Strdup.log_bytes",
    "Diminuto.Strdup.no_set",
    "Diminuto.Strdup.set_sessions_partial",
    "Diminuto.Strdup.set_held_counterexample",
    "Diminuto.Strdup.set_longer_counterexample"
   ],
   "note": "The copies and the report are proved. Exchanging pools is proved if buffers are freed and the pool is emptied before; it is false while buffers are held, which the header warns of."
  },
  {
   "property": "C171",
   "status": "partial",
   "theorems": [
    "Diminuto.Wagon.halts_iff",
    "Diminuto.Wagon.status",
    "Diminuto.Wagon.works_prepared",
    "Diminuto.Wagon.works_suits_partial",
    "Diminuto.Wagon.nothing_before",
    "Diminuto.Wagon.role_after_counterexample",
    "Diminuto.Wagon.rate_counterexample",
    "Diminuto.Wagon.negative_counterexample",
    "Diminuto.Wagon.timeout_counterexample",
    "Diminuto.Wagon.missing_counterexample"
   ],
   "note": "Proved for all options, except that what an endpoint has to be is proved only if -4, -6, -c and -s come before -E; it is false if the role is changed afterwards. Large rates, negative sizes and time outs are accepted, and long time outs are undefined."
  },
  {
   "property": "C172",
   "status": "partial",
   "theorems": [
    "Diminuto.Dumptool.main_plain_partial",
    "Diminuto.Dumptool.main_menu",
    "Diminuto.Dumptool.dumps_any",
    "Diminuto.Dumptool.main_stdin",
    "Diminuto.Dumptool.files_zero",
    "Diminuto.Dumptool.address_counterexample"
   ],
   "note": "Proved for contents shorter than 2^64 - 16 bytes. The addresses shown are modulo 2^32, so that for larger files they do not say where the bytes are."
  },
  {
   "property": "C173",
   "status": "partial",
   "theorems": [
    "Diminuto.Collapsetool.inplace_same",
    "Diminuto.Collapsetool.inplace_denotes",
    "Diminuto.Collapsetool.main_written",
    "Diminuto.Collapsetool.main_whole_partial",
    "Diminuto.Collapsetool.nul_counterexample"
   ],
   "note": "Collapsing in place is proved for all strings. The tool writes nothing for an argument whose meaning begins with a nul."
  },
  {
   "property": "C174",
   "status": "proved",
   "theorems": [
    "Diminuto.Renametool.main_done",
    "Diminuto.Renametool.main_usage",
    "Diminuto.Renametool.main_keeps",
    "Diminuto.Renametool.dash_counterexample"
   ],
   "note": "With renameat2(2) as its manual says. Undefined without argv[0]."
  },
  {
   "property": "C175",
   "status": "partial",
   "theorems": [
    "Diminuto.Phextool.options_say",
    "Diminuto.Phextool.main_reads_back",
    "Diminuto.Phextool.main_denotes_partial",
    "Diminuto.Phextool.phex_collapse_partial",
    "Diminuto.Phextool.octal_counterexample",
    "Diminuto.Phextool.lines_counterexample",
    "Diminuto.Phextool.length_counterexample"
   ],
   "note": "Reading back is proved for all options and inputs. Collapsing is proved for -l 0 without -n, for inputs without a nul before an octal digit or with -x, and that do not begin with a nul; it is false otherwise."
  },
  {
   "property": "C176",
   "status": "partial",
   "theorems": [
    "Diminuto.Elapsedsleep.main_refuses",
    "Diminuto.Elapsedsleep.main_lasts",
    "Diminuto.Elapsedsleep.main_exact_partial",
    "Diminuto.Elapsedsleep.main_half",
    "Diminuto.Elapsedsleep.units_counterexample",
    "Diminuto.Elapsedsleep.overflow_counterexample",
    "Diminuto.Elapsedsleep.empty_counterexample"
   ],
   "note": "Exact for units that divide 10^9 and delays less than 2^63 ns; false of other units, for which at least half is proved; longer delays overflow, which is undefined."
  },
  {
   "property": "C177",
   "status": "partial",
   "theorems": [
    "Diminuto.Gpiotool.main_refuses",
    "Diminuto.Gpiotool.main_pin_partial",
    "Diminuto.Gpiotool.main_prints",
    "Diminuto.Gpiotool.main_succeeds",
    "Diminuto.Gpiotool.narrow_counterexample",
    "Diminuto.Gpiotool.late_counterexample"
   ],
   "note": "False of pins of 2^31 or more, which are narrowed to another pin, and of a pin whose files come too late, which stays exported."
  },
  {
   "property": "C178",
   "status": "partial",
   "theorems": [
    "Diminuto.Memorysize.pagesize_first",
    "Diminuto.Memorysize.linesize_positive",
    "Diminuto.Memorysize.linesize_first_partial",
    "Diminuto.Memorysize.linesize_leaks",
    "Diminuto.Memorysize.method_counterexample",
    "Diminuto.Memorysize.leak_counterexample",
    "Diminuto.Memorysize.unknown_counterexample"
   ],
   "note": "The size of pages is proved in full, and that of lines for files that can be read and closed; the method is false of the second file, and streams of files without a number are not closed."
  },
  {
   "property": "C179",
   "status": "proved",
   "theorems": [
    "Diminuto.Framer.abort_result",
    "Diminuto.Framer.reads_total",
    "Diminuto.Framer.abort_recovers",
    "Diminuto.Framer.abort_counterexample"
   ],
   "note": "For every prefix, without bounds. The counterexample is of the same claim without an abort, and of an abort of which only the first octet was written."
  },
  {
   "property": "C180",
   "status": "partial",
   "theorems": [
    "Diminuto.Muxsignal.register_effect",
    "Diminuto.Muxsignal.unregister_effect",
    "Diminuto.Muxsignal.calls_block",
    "Diminuto.Muxsignal.register_result_partial",
    "Diminuto.Muxsignal.kept_counterexample"
   ],
   "note": "The claim of the result is false of the signals 32 and 33, which the C library keeps."
  },
  {
   "property": "C181",
   "status": "proved",
   "theorems": [
    "Diminuto.Framer.terminal_stays",
    "Diminuto.Framer.terminal_kinds",
    "Diminuto.Framer.offers",
    "Diminuto.Framer.fresh",
    "Diminuto.Framer.continues",
    "Diminuto.Framer.farend_restarts",
    "Diminuto.Framer.nearend_restarts",
    "Diminuto.Framer.rollover_counterexample"
   ],
   "note": "The counterexample is of the claims that the comments in the header suggest: at the first frame, and if a frame is lost where the numbers begin again."
  },
  {
   "property": "C182",
   "status": "partial",
   "theorems": [
    "Diminuto.Throttle.alarmed_exact",
    "Diminuto.Throttle.full_alarmed",
    "Diminuto.Throttle.transitions",
    "Diminuto.Throttle.reset_forgets",
    "Diminuto.Throttle.full_delays",
    "Diminuto.Throttle.expected_exact",
    "Diminuto.Throttle.shaper_reset",
    "Diminuto.Throttle.shaper_transitions_partial",
    "Diminuto.Throttle.shaper_counterexample"
   ],
   "note": "Proved of throttles. Of shapers the claim about transitions holds in one direction only."
  },
  {
   "property": "C183",
   "status": "partial",
   "theorems": [
    "Diminuto.DList.mailboxes_partial",
    "Diminuto.DList.resend_counterexample"
   ],
   "note": "False of a message that is sent to the mailbox of which it is already the last: it is lost."
  },
  {
   "property": "C184",
   "status": "partial",
   "theorems": [
    "Diminuto.Flicker.flicker_rounding",
    "Diminuto.Flicker.flicker_ties",
    "Diminuto.Flicker.flicker_exact",
    "Diminuto.Flicker.flicker_range",
    "Diminuto.Flicker.flicker_small",
    "Diminuto.Flicker.flicker_factor",
    "Diminuto.Flicker.flicker_changed",
    "Diminuto.Flicker.flicker_close_counterexample"
   ],
   "note": "All but the last claim about the score: how close the counts are makes no difference (counterexample), because half of the sum of difference and sum is the greater count."
  },
  {
   "property": "C185",
   "status": "partial",
   "theorems": [
    "Diminuto.Listing.listing_exit_partial",
    "Diminuto.Listing.listing_readable_partial",
    "Diminuto.Listing.listing_newline_counterexample"
   ],
   "note": "Reading back is proved for names without newlines that do not begin with a space, and is false otherwise (counterexample). The lines on the standard error and failures of the output are not modelled."
  },
  {
   "property": "C186",
   "status": "partial",
   "theorems": [
    "Diminuto.Lux.lux_close",
    "Diminuto.Lux.lux_range",
    "Diminuto.Lux.lux_order_partial",
    "Diminuto.Lux.lux_order_counterexample"
   ],
   "note": "All but the last claim; that holds except where the ratio gets above 0.8 (counterexample). The power is any function with the properties that are needed of pow(3) with the exponent 1.4."
  },
  {
   "property": "C187",
   "status": "partial",
   "theorems": [
    "Diminuto.Luxtool.luxtool_sense",
    "Diminuto.Luxtool.luxtool_sense_fails",
    "Diminuto.Luxtool.luxtool_extremes",
    "Diminuto.Luxtool.luxtool_brightness_partial",
    "Diminuto.Luxtool.luxtool_invalid",
    "Diminuto.Luxtool.luxtool_null_counterexample",
    "Diminuto.Luxtool.luxtool_range_counterexample"
   ],
   "note": "All but the complaints: numbers that are too large, negative numbers and empty arguments are accepted, and with the option and one number the null pointer is passed to strtoul (counterexamples)."
  },
  {
   "property": "C188",
   "status": "partial",
   "theorems": [
    "Diminuto.Adc.adc_close",
    "Diminuto.Adc.adc_order",
    "Diminuto.Adc.adc_range_partial",
    "Diminuto.Adc.adc_range_counterexample",
    "Diminuto.Adc.adc_bytes",
    "Diminuto.Adc.adc_configure",
    "Diminuto.Adc.adc_configure_fails",
    "Diminuto.Adc.adc_default",
    "Diminuto.Adc.adc_sense",
    "Diminuto.Adc.adc_configured",
    "Diminuto.Adc.adc_sense_fails",
    "Diminuto.Adc.adc_short_counterexample"
   ],
   "note": "All but two claims: the least raw value gives a voltage beyond the full scale, and a short transfer is accepted as success with another voltage (counterexamples)."
  },
  {
   "property": "C189",
   "status": "partial",
   "theorems": [
    "Diminuto.Regulate.regulate_sensed",
    "Diminuto.Regulate.regulate_loop",
    "Diminuto.Regulate.regulate_feedback",
    "Diminuto.Regulate.regulate_input_partial",
    "Diminuto.Regulate.regulate_input_toward",
    "Diminuto.Regulate.regulate_input_counterexample",
    "Diminuto.Regulate.regulate_target_counterexample",
    "Diminuto.Regulate.regulate_arguments_partial",
    "Diminuto.Regulate.regulate_usage",
    "Diminuto.Regulate.regulate_limit",
    "Diminuto.Regulate.regulate_invalid",
    "Diminuto.Regulate.regulate_arguments_counterexample"
   ],
   "note": "All but two claims: the input of the controller is 500 millivolts too great, and arguments that are negative or do not fit in 16 bits are accepted (counterexamples)."
  },
  {
   "property": "C190",
   "status": "partial",
   "theorems": [
    "Diminuto.Illuminate.illuminate_sensed",
    "Diminuto.Illuminate.illuminate_loop",
    "Diminuto.Illuminate.illuminate_feedback",
    "Diminuto.Illuminate.illuminate_input_partial",
    "Diminuto.Illuminate.illuminate_input_counterexample",
    "Diminuto.Illuminate.illuminate_target_counterexample",
    "Diminuto.Illuminate.illuminate_arguments_partial",
    "Diminuto.Illuminate.illuminate_usage",
    "Diminuto.Illuminate.illuminate_limit",
    "Diminuto.Illuminate.illuminate_invalid",
    "Diminuto.Illuminate.illuminate_arguments_counterexample"
   ],
   "note": "All but two claims: the input of the controller is five tenths of a lux too great, and arguments that are negative or do not fit in 16 bits are accepted (counterexamples)."
  },
  {
   "property": "C191",
   "status": "proved",
   "theorems": [
    "Diminuto.Rheostat.rheostat_sweep",
    "Diminuto.Rheostat.rheostat_legal",
    "Diminuto.Rheostat.rheostat_complete"
   ],
   "note": "In the model, which leaves out the files, the signals and the voltage."
  }
 ]
}