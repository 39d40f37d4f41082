{"id": "C01", "title": "Fletcher checksum is incremental", "statement": "Feeding a message to diminuto_fletcher_16 in any number of pieces, carrying the A and B bytes from call to call, yields the same 16-bit checksum and the same A and B as one call over the whole message, and both equal the textbook Fletcher-16 sums modulo 255.", "quantifier": "every byte string, every way of cutting it into pieces, every starting A and B below 255", "why_tests_cant": "Tests check a few vectors; the number of messages and splittings is unbounded.", "anchors": ["Diminuto/src/diminuto_fletcher.c:diminuto_fletcher_16", "Diminuto/inc/com/diag/diminuto/diminuto_fletcher.h"]}
{"id": "C02", "title": "Fletcher checksum detects every single-byte corruption except 00/FF", "statement": "Replacing exactly one byte of a message by a different byte changes the Fletcher-16 checksum, except when the pair is {0x00, 0xFF}, in which case the checksum is always unchanged.", "quantifier": "every message, every position, every pair of distinct byte values", "why_tests_cant": "The set of (message, position, replacement) triples is infinite, and the 00/FF blind spot is easily missed by sampling.", "anchors": ["Diminuto/src/diminuto_fletcher.c:diminuto_fletcher_16"]}
{"id": "C03", "title": "Kermit CRC table equals the bitwise CRC", "statement": "diminuto_kermit_16 computes the reflected CCITT CRC (polynomial x^16+x^12+x^5+1) of the input for any initial value, i.e. the 256-entry table agrees with bit-by-bit division, and it is incremental over concatenation.", "quantifier": "every byte string, every initial CRC value, every split", "why_tests_cant": "A wrong table entry only shows for inputs that index it in the right state; all strings cannot be tried.", "anchors": ["Diminuto/src/diminuto_kermit.c:diminuto_kermit_16", "Diminuto/inc/com/diag/diminuto/diminuto_kermit.h"]}
{"id": "C04", "title": "Kermit CRC detects every burst error of at most sixteen bits", "statement": "If two messages of equal length differ only within a window of at most sixteen consecutive bits (in transmission order), diminuto_kermit_16 gives different results; in particular any change confined to one or two adjacent bytes is detected. Any two messages of equal length that differ in an odd number of bits also give different results. The CRC is injective in its initial value.", "quantifier": "every message length, every window position, every non-zero error pattern of span at most sixteen bits, every initial value", "why_tests_cant": "The guarantee is over unboundedly long messages and all window positions.", "anchors": ["Diminuto/src/diminuto_kermit.c:diminuto_kermit_16"]}
{"id": "C05", "title": "Kermit CRC character encoding round-trips and stays printable", "statement": "diminuto_kermit_chars2crc recovers exactly the CRC given to diminuto_kermit_crc2chars; the three characters satisfy the respective is-valid predicates, lie between space and underscore, and never equal a framing character.", "quantifier": "every 16-bit CRC value", "why_tests_cant": "Tests sample a few of the 65536 values and do not relate them to the framing characters.", "anchors": ["Diminuto/src/diminuto_kermit.c", "Diminuto/inc/com/diag/diminuto/diminuto_kermit.h:diminuto_kermit_crc2chars"]}
{"id": "C06", "title": "Hamming(8,4) corrects every single-bit error and flags every double-bit error", "statement": "Encoding a nibble and decoding the symbol returns the nibble; any one flipped bit is corrected to the original nibble; any two flipped bits are reported as uncorrectable rather than silently miscorrected.", "quantifier": "every nibble, every single and double bit error position", "why_tests_cant": "The existing tests exercise table entries, not the correct/detect trichotomy over every pair of flipped bits.", "anchors": ["Diminuto/src/diminuto_hamming.c", "Diminuto/inc/com/diag/diminuto/diminuto_hamming.h", "Diminuto/src/diminuto_hamming.h"]}
{"id": "C07", "title": "Framer round trip", "statement": "The byte stream emitted by the framer's writer for a payload, fed byte by byte to a receiver with a large enough buffer, ends in the complete state with exactly the payload bytes in the buffer, exactly the payload length reported, and the sender's sequence number.", "quantifier": "every payload from 1 to 65535 bytes (all byte values), every 16-bit sequence number, every buffer size at least the payload length", "why_tests_cant": "Payload content drives escaping in every field (length, sequence, checksum, CRC); tests try a handful of payloads.", "anchors": ["Diminuto/src/diminuto_framer.c:diminuto_framer_machine", "Diminuto/src/diminuto_framer.c:diminuto_framer_writer", "Diminuto/src/diminuto_framer.c:diminuto_framer_emit"]}
{"id": "C08", "title": "Framer receiver never stores outside its buffer", "statement": "Whatever bytes arrive, the receiving state machine stores only at indices below the buffer size it was initialised with, never trips its internal contracts, and reports overflow (without storing any payload byte) when the announced length exceeds the buffer size.", "quantifier": "every buffer size, every finite sequence of byte tokens and end-of-file indications", "why_tests_cant": "Adversarial input sequences are unbounded; fuzzing only samples them.", "anchors": ["Diminuto/src/diminuto_framer.c:diminuto_framer_machine", "Diminuto/inc/com/diag/diminuto/diminuto_framer.h"]}
{"id": "C09", "title": "Framer delivers only frames whose checks verify", "statement": "The receiver reaches the complete state only if the header bytes received match the transmitted Fletcher checksum, and the payload bytes stored match the transmitted Kermit CRC, with the payload length equal to the header length.", "quantifier": "every input byte sequence, every buffer size", "why_tests_cant": "A missing check only shows on the particular corrupted inputs it fails to reject.", "anchors": ["Diminuto/src/diminuto_framer.c:diminuto_framer_machine"]}
{"id": "C10", "title": "Framer tolerates software flow control anywhere", "statement": "Inserting any number of XON and XOFF bytes at any points of an incoming byte stream leaves the sequence of receiver states, the stored payload, the length and the sequence numbers unchanged (the count of octets received includes them); afterwards the receiver's throttle flag reflects exactly the last XON/XOFF received.", "quantifier": "every byte stream, every set of insertion points, every buffer size", "why_tests_cant": "Insertion points inside escapes and checksum fields are combinatorially many.", "anchors": ["Diminuto/src/diminuto_framer.c:diminuto_framer_machine"]}
{"id": "C11", "title": "Framer output is free of control bytes except as framing", "statement": "In the bytes emitted for a frame, the flag byte occurs only first, the newline byte only last, and XON and XOFF never occur, so a frame can be carried over a link using software flow control.", "quantifier": "every payload, every sequence number", "why_tests_cant": "Any single payload byte or checksum value could break it.", "anchors": ["Diminuto/src/diminuto_framer.c:diminuto_framer_emit", "Diminuto/src/diminuto_framer.c:diminuto_framer_writer"]}
{"id": "C12", "title": "Framer resynchronises after garbage", "statement": "After arbitrary garbage that leaves the receiver in any non-terminal state other than in the middle of an escape sequence, a valid frame is received completely; in the escape case the first frame may be lost, and the receiver reports an abort, after which a reset receiver accepts the next frame.", "quantifier": "every garbage prefix, every payload, every buffer size at least the payload length", "why_tests_cant": "Garbage prefixes are unbounded and may themselves look like partial frames.", "anchors": ["Diminuto/src/diminuto_framer.c:diminuto_framer_machine"]}
{"id": "C13", "title": "Framer sequence accounting", "statement": "For an ideal channel the missing and duplicated counts stay zero after any number of consecutive frames, including across the 16-bit wrap-around; if k consecutive frames (k below 65536) are lost the next delivered frame reports exactly k missing; if a frame k positions back is repeated it reports exactly k+1 duplicates.", "quantifier": "every starting sequence number, every number of frames, every gap or repetition distance below 65536", "why_tests_cant": "Requires reasoning across the 65536 wrap and every gap length.", "anchors": ["Diminuto/src/diminuto_framer.c", "Diminuto/inc/com/diag/diminuto/diminuto_framer.h:diminuto_framer_getmissing", "Diminuto/inc/com/diag/diminuto/diminuto_framer.h:diminuto_framer_getduplicated"]}
{"id": "C14", "title": "Escape expansion then collapse is the identity", "statement": "Collapsing the expansion of a byte string (with a large enough buffer) gives the original string back.", "quantifier": "every byte string, every set of extra special characters", "why_tests_cant": "Depends on adjacency of bytes: NUL followed by an octal digit is a case tests miss.", "anchors": ["Diminuto/src/diminuto_escape.c:diminuto_escape_expand", "Diminuto/src/diminuto_escape.c:diminuto_escape_collapse"]}
{"id": "C15", "title": "Escape functions never write past the destination and always terminate it", "statement": "diminuto_escape_collapse and diminuto_escape_expand write at most tsize bytes, report the number written, and when tsize is positive the output is NUL terminated; a truncated expansion consists of whole escape sequences.", "quantifier": "every source string, every destination size including zero and one", "why_tests_cant": "Boundary between the last escape sequence and the buffer end varies with every input.", "anchors": ["Diminuto/src/diminuto_escape.c"]}
{"id": "C16", "title": "String copy is bounded and terminated", "statement": "diminuto_string_copy and diminuto_string_append-style bounded copies produce the longest prefix of the source that fits, NUL-terminated, never touching bytes at or beyond the given size.", "quantifier": "every source string, every destination size", "why_tests_cant": "Off-by-one at every size cannot be enumerated.", "anchors": ["Diminuto/src/diminuto_string.c", "Diminuto/inc/com/diag/diminuto/diminuto_string.h"]}
{"id": "C17", "title": "Ring bookkeeping refines a bounded FIFO of slots", "statement": "Under any sequence of producer requests/revokes and consumer requests/revokes, the used count plus the free count equals the capacity, granted index ranges are in bounds, and the slots handed to the consumer are the slots handed to the producer in the same order, with no slot owned by both.", "quantifier": "every positive capacity up to 2^31-1, every sequence of operations with every request size up to the capacity", "why_tests_cant": "Histories are unbounded and wrap-around interacts with revocation.", "anchors": ["Diminuto/src/diminuto_ring.c", "Diminuto/inc/com/diag/diminuto/diminuto_ring.h"]}
{"id": "C18", "title": "Ring requests larger than the free space are always refused", "statement": "A producer request that exceeds the free space, or a consumer request that exceeds the used space, returns an error and changes nothing, for every 32-bit request value.", "quantifier": "every capacity, fill level and 32-bit request value", "why_tests_cant": "Needs the huge request values that wrap 32-bit arithmetic, which tests do not use.", "anchors": ["Diminuto/src/diminuto_ring.c:diminuto_ring_producer_request", "Diminuto/src/diminuto_ring.c:diminuto_ring_consumer_request"]}
{"id": "C19", "title": "Cue debouncer rejects glitches and tracks stable input", "statement": "The debounced output changes to a level only after three consecutive samples at that level, is unaffected by any glitch shorter than three samples, and after three equal samples always equals them.", "quantifier": "every infinite sample sequence, every initial state", "why_tests_cant": "Sample histories are unbounded.", "anchors": ["Diminuto/src/diminuto_cue.c", "Diminuto/inc/com/diag/diminuto/diminuto_cue.h"]}
{"id": "C20", "title": "Lists stay well-formed circular doubly-linked rings under every operation history", "statement": "Starting from initialised nodes, after any sequence of list operations (remove, insert, push, pop, enqueue, dequeue, replace, reroot, and so on) every node's next and previous links are mutually inverse, every node belongs to exactly one ring, and each node's root is a member of its ring.", "quantifier": "every number of nodes, every sequence of operations with every choice of arguments (including repeated and self arguments permitted by the API)", "why_tests_cant": "Pointer aliasing cases (self insert, insert after neighbour, remove of a root) multiply beyond testing.", "anchors": ["Diminuto/src/diminuto_list.c", "Diminuto/inc/com/diag/diminuto/diminuto_list.h"]}
{"id": "C21", "title": "List as FIFO and LIFO", "statement": "Enqueue followed by dequeues returns nodes in insertion order; push/pop returns them in reverse; a dequeued or popped node is no longer a member of any list; pop/dequeue of an empty list returns NULL and changes nothing.", "quantifier": "every sequence of enqueue/dequeue/push/pop on every number of lists sharing nodes", "why_tests_cant": "Unbounded histories.", "anchors": ["Diminuto/src/diminuto_list.c", "Diminuto/inc/com/diag/diminuto/diminuto_list.h"]}
{"id": "C22", "title": "List cut and splice preserve membership", "statement": "Splicing a cut-out range into another ring after a node yields exactly the concatenation of the two sequences, with no node lost or duplicated, and all spliced nodes reporting the destination's root after rerooting.", "quantifier": "every pair of rings, every contiguous range, every insertion point", "why_tests_cant": "All range/insertion combinations on all ring sizes.", "anchors": ["Diminuto/src/diminuto_list.c:diminuto_list_cut", "Diminuto/src/diminuto_list.c:diminuto_list_splice", "Diminuto/src/diminuto_list.c:diminuto_list_reroot"]}
{"id": "C23", "title": "List audit accepts exactly well-formed rings", "statement": "diminuto_list_audit returns NULL if and only if the ring reachable from the node is a well-formed circular doubly-linked list with a common root.", "quantifier": "every heap of nodes", "why_tests_cant": "Corruptions are unbounded; the position of the corrupted node matters.", "anchors": ["Diminuto/src/diminuto_list.c:diminuto_list_audit"]}
{"id": "C24", "title": "Red-black trees stay balanced under every insert/remove history", "statement": "After any sequence of insertions and removals the tree satisfies all red-black properties (black root, no red node with a red child, equal black counts on every path), so its height is at most 2 log2(n+1).", "quantifier": "every sequence of insertions and removals, every comparator that is a total order", "why_tests_cant": "Rebalancing cases depend on the whole shape; tests exercise few shapes.", "anchors": ["Diminuto/src/diminuto_tree.c:diminuto_tree_insert_root", "Diminuto/src/diminuto_tree.c:diminuto_tree_remove", "Diminuto/inc/com/diag/diminuto/diminuto_tree.h"]}
{"id": "C25", "title": "Trees behave as a finite ordered map", "statement": "Search-insert-or-replace, find and remove implement a finite map keyed by the comparator: a lookup returns the most recently inserted or replaced node for that key if not removed since, otherwise nothing; other keys are unaffected; insert without replace refuses duplicates.", "quantifier": "every sequence of insert, replace, remove and find with every key", "why_tests_cant": "Unbounded histories; rotations must preserve order in every shape.", "anchors": ["Diminuto/src/diminuto_tree.c:diminuto_tree_search_insert_or_replace", "Diminuto/inc/com/diag/diminuto/diminuto_store.h"]}
{"id": "C26", "title": "Tree iteration visits every node exactly once in order", "statement": "Starting at the first node and following next until NULL visits every node exactly once in ascending order; last/prev gives the exact reverse; deletion keeps the order of the others.", "quantifier": "every reachable tree", "why_tests_cant": "All shapes.", "anchors": ["Diminuto/src/diminuto_tree.c:diminuto_tree_next", "Diminuto/src/diminuto_tree.c:diminuto_tree_prev"]}
{"id": "C27", "title": "Tree audit accepts exactly valid red-black trees", "statement": "diminuto_tree_audit reports success if and only if the tree satisfies the structural and red-black properties it documents.", "quantifier": "every tree", "why_tests_cant": "Needs the odd-shaped invalid trees that never arise from the API.", "anchors": ["Diminuto/src/diminuto_tree.c:diminuto_tree_audit"]}
{"id": "C28", "title": "Throttle: an event stream that honours the returned delays always conforms", "statement": "If a producer always waits at least the delay returned by diminuto_throttle_request before admitting an event, the admitted stream never alarms, and a stream that never alarms has at most the contracted number of events in any interval: over any window of length t at most 1 + floor((t + limit)/increment) events.", "quantifier": "every contract (increment, limit), every sequence of request and commit times", "why_tests_cant": "Quantifies over all time sequences and all windows.", "anchors": ["Diminuto/src/diminuto_throttle.c", "Diminuto/inc/com/diag/diminuto/diminuto_throttle.h"]}
{"id": "C29", "title": "Throttle implements both formulations of the GCRA", "statement": "The virtual-scheduling state kept by the throttle admits exactly the events that a continuous-state leaky bucket with the same increment and limit admits.", "quantifier": "every increment and limit, every arrival time sequence", "why_tests_cant": "Equivalence over unbounded arrival sequences.", "anchors": ["Diminuto/src/diminuto_throttle.c:diminuto_throttle_request", "Diminuto/src/diminuto_throttle.c:diminuto_throttle_commitn"]}
{"id": "C30", "title": "Shaper enforces both peak and sustained contracts", "statement": "The delay returned by the shaper is never less than the delay required by either of its two throttles, waiting it satisfies both, and the shaper alarms exactly when one of its throttles alarms.", "quantifier": "every pair of contracts, every sequence of request/commit times and sizes", "why_tests_cant": "Unbounded histories, two interacting contracts.", "anchors": ["Diminuto/src/diminuto_shaper.c", "Diminuto/inc/com/diag/diminuto/diminuto_shaper.h"]}
{"id": "C31", "title": "Fibonacci back-off is bounded and reaches its limit", "statement": "Successive values returned by the Fibonacci generator are non-decreasing, follow the Fibonacci sequence until the largest Fibonacci number not exceeding the configured maximum, and stay there forever.", "quantifier": "every maximum, every number of calls", "why_tests_cant": "Must hold for every maximum including those equal to a Fibonacci number.", "anchors": ["Diminuto/inc/com/diag/diminuto/diminuto_fibonacci.h"]}
{"id": "C32", "title": "Modulator duty cycle is exact", "statement": "Over any whole cycle of the pulse-width modulator the output is on for duty/255 of the timer firings; duty 0 is constantly off and duty 255 constantly on; reducing the on/off counts preserves their ratio.", "quantifier": "every duty cycle 0..255, every number of firings", "why_tests_cant": "Long-run ratio over unbounded firings.", "anchors": ["Diminuto/src/diminuto_modulator.c", "Diminuto/inc/com/diag/diminuto/diminuto_modulator.h"]}
{"id": "C33", "title": "PID controller output respects its limits", "statement": "Whatever the targets and inputs, the controller's output lies within [minimum, maximum], never strictly between minimum and lower or between upper and maximum, and the integral stays within the wind-up bound.", "quantifier": "every parameter set with minimum <= lower <= upper <= maximum, every sequence of targets and inputs", "why_tests_cant": "Unbounded input histories including extreme values that overflow.", "anchors": ["Diminuto/src/diminuto_controller.c:diminuto_controller_output", "Diminuto/inc/com/diag/diminuto/diminuto_controller.h"]}
{"id": "C34", "title": "Reader-writer lock mutual exclusion", "statement": "At no time do a writer and a reader, or two writers, hold the lock, under any interleaving of begin/end calls with any timeouts and priorities.", "quantifier": "every number of threads, every schedule, every timeout and priority choice", "why_tests_cant": "Schedules are unbounded; races do not reproduce in tests.", "anchors": ["Diminuto/src/diminuto_readerwriter.c", "Diminuto/inc/com/diag/diminuto/diminuto_readerwriter.h"]}
{"id": "C35", "title": "Reader-writer lock serves waiters in queue order", "statement": "Absent priorities and timeouts, threads that must wait are activated in arrival order: no later-arriving thread enters before an earlier waiting writer, and a batch of readers at the head enters together.", "quantifier": "every schedule of arrivals and departures", "why_tests_cant": "Starvation scenarios need unbounded schedules.", "anchors": ["Diminuto/src/diminuto_readerwriter.c:diminuto_reader_begin_f", "Diminuto/src/diminuto_readerwriter.c:diminuto_writer_begin_f"]}
{"id": "C36", "title": "Reader-writer lock never loses a wake-up", "statement": "Whenever no thread holds the lock, no thread is left waiting un-activated in the queue; every holder that ends makes progress possible for the head of the queue.", "quantifier": "every schedule including timeouts", "why_tests_cant": "Lost wake-ups are schedule-dependent.", "anchors": ["Diminuto/src/diminuto_readerwriter.c"]}
{"id": "C37", "title": "Reader-writer lock survives timeouts", "statement": "A begin call that times out leaves the lock exactly as if the call had not been made, unless it was activated concurrently in which case it returns success holding the lock.", "quantifier": "every interleaving of timeout and activation", "why_tests_cant": "The race window is tiny.", "anchors": ["Diminuto/src/diminuto_readerwriter.c"]}
{"id": "C38", "title": "Multiplexer returns every ready descriptor exactly once", "statement": "After a wait that reports ready descriptors, repeated calls to a ready function return each registered-and-ready descriptor exactly once and then -1, resuming round-robin after the last one returned, and never touch a descriptor set out of range.", "quantifier": "every registration history, every ready set the kernel may return", "why_tests_cant": "Depends on the relative numbering of read and accept descriptors.", "anchors": ["Diminuto/src/diminuto_mux.c:diminuto_mux_set_ready", "Diminuto/src/diminuto_mux.c:diminuto_mux_wait_generic"]}
{"id": "C39", "title": "Multiplexer bounds track the registered descriptors", "statement": "After any history of register, unregister and close, the minimum and maximum recorded for each set are exactly those of its registered descriptors and a wait examines every registered descriptor.", "quantifier": "every history of registrations", "why_tests_cant": "Unbounded histories.", "anchors": ["Diminuto/src/diminuto_mux.c:diminuto_mux_register", "Diminuto/src/diminuto_mux.c:diminuto_mux_unregister", "Diminuto/src/diminuto_mux.c:diminuto_mux_set_bound"]}
{"id": "C40", "title": "Buffer pool never hands out a live buffer and returns buffers large enough", "statement": "Every buffer returned by the pool's get is at least as large as requested and is not currently owned by the application; after put it may be reused only for requests of its own size class.", "quantifier": "every history of malloc, free, realloc, calloc, prealloc and fini in which only held buffers are freed and sizes do not overflow, every pool configuration with ascending sizes", "why_tests_cant": "Unbounded allocation histories; extreme sizes.", "anchors": ["Diminuto/src/diminuto_bufferpool.c", "Diminuto/src/diminuto_bufferpool.h", "Diminuto/src/diminuto_buffer.c"]}
{"id": "C41", "title": "Fixed pool and well conserve their objects", "statement": "At any time each object of a well is either free or in use, never both; allocation fails exactly when none is free; objects are recycled in first-freed-first-allocated order.", "quantifier": "every history of alloc and free in which the application frees only objects that it holds", "why_tests_cant": "Unbounded histories.", "anchors": ["Diminuto/src/diminuto_well.c", "Diminuto/inc/com/diag/diminuto/diminuto_well.h"]}
{"id": "C42", "title": "Observation commit is atomic with respect to readers and process crashes", "statement": "At every instant, including after a crash of the writing process at any point, a reader opening the final path sees either the complete old file or the complete new content, never a partial one; after discard the old file is untouched.", "quantifier": "every interleaving of reader opens with the writer's steps, every crash point, every content", "why_tests_cant": "Crash points and interleavings cannot be enumerated by running the code.", "anchors": ["Diminuto/src/diminuto_observation.c", "Diminuto/inc/com/diag/diminuto/diminuto_observation.h"]}
{"id": "C43", "title": "File lock provides mutual exclusion among processes", "statement": "At most one process has successfully acquired a given lock file between two releases; a failed attempt leaves the lock and its contents untouched and leaves no temporary file behind; the lock file of a holder always contains the holder's PID from the instant it exists.", "quantifier": "every number of processes, every interleaving of their file-system calls, every crash point", "why_tests_cant": "Races between processes.", "anchors": ["Diminuto/src/diminuto_lock.c:diminuto_lock_f", "Diminuto/src/diminuto_lock.c:diminuto_lock_prelock", "Diminuto/src/diminuto_lock.c:diminuto_lock_unlock"]}
{"id": "C44", "title": "Tick arithmetic decomposes and recomposes exactly", "statement": "Splitting any signed tick count into whole seconds and a non-negative fraction (including before the Epoch) and recombining gives the original; durations split into days, hours, minutes, seconds and ticks with every field in range recombine to the magnitude.", "quantifier": "every signed 64-bit tick value for which no overflow occurs", "why_tests_cant": "2^64 values, negative edge cases.", "anchors": ["Diminuto/src/diminuto_time.c:diminuto_time_separate", "Diminuto/src/diminuto_time.c:diminuto_time_duration", "Diminuto/inc/com/diag/diminuto/diminuto_frequency.h"]}
{"id": "C45", "title": "Frequency conversion is accurate", "statement": "Converting ticks to units of a given frequency gives the floor of the exact quotient, and units to ticks and back is the identity, for frequencies dividing the tick frequency.", "quantifier": "every tick value, every frequency", "why_tests_cant": "Inexact for non-divisor frequencies; needs all frequencies.", "anchors": ["Diminuto/inc/com/diag/diminuto/diminuto_frequency.h:diminuto_frequency_ticks2units", "Diminuto/inc/com/diag/diminuto/diminuto_frequency.h:diminuto_frequency_units2ticks"]}
{"id": "C46", "title": "Read and write loops transfer a contiguous prefix under any short-I/O schedule", "statement": "The generic read and write functions transfer exactly a contiguous prefix of the data, never exceed the maximum, return at least the minimum unless end-of-file or an error intervened, and return an error only if nothing was transferred.", "quantifier": "every sequence of short counts, interruptions, end-of-files and errors returned by the kernel, every minimum up to SSIZE_MAX", "why_tests_cant": "The kernel's short-read schedules are unbounded.", "anchors": ["Diminuto/src/diminuto_fd.c:diminuto_fd_read_generic", "Diminuto/src/diminuto_fd.c:diminuto_fd_write_generic"]}
{"id": "C47", "title": "Endpoint parser is total, in-bounds and classifies by grammar", "statement": "For every NUL-terminated string the endpoint parser terminates without reading past the terminator, and fails on a syntax error; over-long strings are rejected; a numeric port outside 0..65535 is rejected.", "quantifier": "every string", "why_tests_cant": "Unbounded input strings.", "anchors": ["Diminuto/src/diminuto_ipc_endpoint.c:diminuto_ipc_endpoint_prefer"]}
{"id": "C48", "title": "Command line reconstruction is bounded and exact when it fits", "statement": "diminuto_command_line writes at most size bytes including the terminator, and writes exactly the space-joined arguments whenever size is at least diminuto_command_length.", "quantifier": "every argument vector, every buffer size", "why_tests_cant": "All combinations of argument lengths and sizes.", "anchors": ["Diminuto/src/diminuto_command.c"]}
{"id": "C49", "title": "Path canonicalisation has no out-of-bounds access", "statement": "diminuto_fs_canonicalize never reads or writes outside its strings and buffers, and on success produces an absolute path whose last component is the file part of the input.", "quantifier": "every path string, every result realpath may return, every buffer size", "why_tests_cant": "Root-level paths trigger an unusual branch.", "anchors": ["Diminuto/src/diminuto_fs.c:diminuto_fs_canonicalize"]}
{"id": "C50", "title": "Signal counters lose no signal", "statement": "The number of signals reported by the check functions plus the number pending equals the number of handler invocations (up to saturation), for the alarm, hangup, interrupter, terminator and reaper features.", "quantifier": "every interleaving of handler invocations and checks, in any threads", "why_tests_cant": "Race window of two instructions.", "anchors": ["Diminuto/src/diminuto_alarm.c", "Diminuto/src/diminuto_hangup.c", "Diminuto/src/diminuto_interrupter.c", "Diminuto/src/diminuto_terminator.c", "Diminuto/src/diminuto_reaper.c"]}
{"id": "C51", "title": "Logical clock gives unique increasing timestamps", "statement": "Values returned by diminuto_time_logical to any threads are unique and increasing in call order until 2^64 calls, after which every call reports overflow until it is reset.", "quantifier": "every number of calls and threads", "why_tests_cant": "2^64 calls cannot be run.", "anchors": ["Diminuto/src/diminuto_time.c:diminuto_time_logical"]}
{"id": "C52", "title": "Timer stop means stopped", "statement": "Once diminuto_timer_stop has returned success the callback is not executing and is never invoked again until the timer is restarted.", "quantifier": "every interleaving of expirations, callbacks and stop", "why_tests_cant": "Race between callback threads and stop.", "anchors": ["Diminuto/src/diminuto_timer.c:proxy", "Diminuto/src/diminuto_timer.c:diminuto_timer_stop"]}
{"id": "C53", "title": "Memory power-of-two and alignment arithmetic", "statement": "diminuto_memory_power returns the least power of two not less than its argument (or zero when none is representable), diminuto_memory_is_power recognises exactly the powers of two, and diminuto_memory_alignment rounds up to the least multiple for power-of-two alignments when no overflow occurs.", "quantifier": "every size_t value", "why_tests_cant": "2^64 inputs.", "anchors": ["Diminuto/src/diminuto_memory.c", "Diminuto/inc/com/diag/diminuto/diminuto_memory.h"]}
{"id": "C54", "title": "Dump prints every byte exactly once at its address", "statement": "diminuto_dump_generic prints, for power-of-two line widths, a whole number of lines covering the data, each byte exactly once in order at the column of its address, and reads no byte outside the data.", "quantifier": "every address, length, word size and line size", "why_tests_cant": "All alignments and lengths.", "anchors": ["Diminuto/src/diminuto_dump.c:diminuto_dump_generic"]}
{"id": "C55", "title": "PID controller saturates", "statement": "The controller's output is the previous output plus the correction, limited to the nearest legal value: a correction that would exceed the maximum (minimum) yields the maximum (minimum).", "quantifier": "every parameter set, state, target, input and previous output", "why_tests_cant": "2^48 argument combinations per state; wrong only at the extremes.", "anchors": ["Diminuto/src/diminuto_controller.c:diminuto_controller"]}
{"id": "C56", "title": "Trim removes exactly the unescaped trailing blanks", "statement": "diminuto_escape_trim copies the source without its trailing blanks, except that a first trailing blank which is escaped (preceded by an odd number of backslashes) is kept; the result is truncated to the buffer, terminated, and its length returned.", "quantifier": "every source string, every destination size", "why_tests_cant": "Infinitely many strings; the failing ones need three backslashes.", "anchors": ["Diminuto/src/diminuto_escape.c:diminuto_escape_trim"]}
{"id": "C57", "title": "Reading frames from a stream", "statement": "diminuto_framer_read, whatever octets the stream holds, either reports end of file or returns the payload of a valid, non-empty frame that fits the buffer, of which the last octet is the last one consumed; and called repeatedly on a stream of valid frames it returns exactly the payloads that are not empty and that fit, each once and in order.", "quantifier": "every finite octet stream, every buffer size; every list of valid frames including empty and oversized ones", "why_tests_cant": "Unboundedly many streams; skipped frames leave the receiver in the middle of octets it must ignore.", "anchors": ["Diminuto/src/diminuto_framer.c:diminuto_framer_read", "Diminuto/src/diminuto_framer.c:diminuto_framer_reader"]}
{"id": "C58", "title": "Throttle and shaper parameters mean what they say", "statement": "The interarrival time computed for a rate is the least increment whose rate does not exceed it; the jitter tolerance computed for a maximum burst size lets exactly that many back-to-back events through an idle throttle undelayed; and the burst tolerance lets exactly that many events at the peak rate through an idle sustained contract undelayed.", "quantifier": "every rate, frequency, increment and burst size whose products do not overflow 64 bits", "why_tests_cant": "Rounding and off-by-one errors appear only for particular ratios and burst sizes.", "anchors": ["Diminuto/src/diminuto_throttle.c:diminuto_throttle_interarrivaltime", "Diminuto/src/diminuto_throttle.c:diminuto_throttle_jittertolerance", "Diminuto/src/diminuto_shaper.c:diminuto_shaper_bursttolerance"]}
{"id": "C59", "title": "Reader-writer lock survives cancellation", "statement": "When a thread that waits in a begin call is cancelled, the other threads can use the lock as if that call had not been made.", "quantifier": "every schedule, every point of cancellation in the wait", "why_tests_cant": "Cancellation points and races with activation do not reproduce in tests; the header says that this is untested.", "anchors": ["Diminuto/src/diminuto_readerwriter.c:wait_cleanup", "Diminuto/src/diminuto_readerwriter.c:satisfy"]}
{"id": "C60", "title": "Collapse decodes C escape sequences exactly", "statement": "Given enough room, diminuto_escape_collapse yields exactly the octets that the escape sequences in the source denote: single-letter escapes, octal escapes of one to three digits, hexadecimal escapes of one or two digits in either case, and any other escaped or plain character itself.", "quantifier": "every source string", "why_tests_cant": "Infinitely many strings; upper-case hexadecimal digits, short octal runs and a trailing backslash are easily left out.", "anchors": ["Diminuto/src/diminuto_escape.c:diminuto_escape_collapse"]}
{"id": "C61", "title": "PID controller follows the control law", "statement": "After any history of inputs the output of diminuto_controller is the previous output corrected by the proportional, integral and differential terms of the history of samples: the smoothed input, the sum of errors since the reset limited to its bounds, and the difference of the last two samples, each with its own gain.", "quantifier": "every sequence of calls, every parameter set without overflow", "why_tests_cant": "Terms that are zero in typical tests hide a wrong sign or a stale state.", "anchors": ["Diminuto/src/diminuto_controller.c:diminuto_controller"]}
{"id": "C62", "title": "Aligned allocation passes valid arguments", "statement": "diminuto_memory_aligned calls posix_memalign with an alignment that is a power of two multiple of the pointer size, and a size that is a multiple of the alignment not less than the size requested.", "quantifier": "every alignment and size", "why_tests_cant": "Only alignments that are not already powers of two fail.", "anchors": ["Diminuto/src/diminuto_memory.c:diminuto_memory_aligned"]}
{"id": "C63", "title": "Calendar time round trip", "statement": "diminuto_time_epoch applied to the fields that diminuto_time_zulu returns gives back the tick count.", "quantifier": "every 64-bit tick count, including negative ones and the second before the Epoch", "why_tests_cant": "2^64 tick counts; the second before the Epoch collides with the error value of timegm.", "anchors": ["Diminuto/src/diminuto_time.c:diminuto_time_epoch", "Diminuto/src/diminuto_time.c:diminuto_time_zulu"]}
{"id": "C64", "title": "Rounding to a frequency is to the nearest multiple on one side", "statement": "diminuto_frequency_roundup (rounddown) returns the multiple of its second argument nearest to the first whose magnitude is not less (not greater).", "quantifier": "every pair of arguments with positive divisor whose neighbouring multiples are representable", "why_tests_cant": "2^128 argument pairs, both signs.", "anchors": ["Diminuto/inc/com/diag/diminuto/diminuto_frequency.h:diminuto_frequency_roundup", "Diminuto/inc/com/diag/diminuto/diminuto_frequency.h:diminuto_frequency_rounddown"]}
{"id": "C65", "title": "Zone names are the military ones", "statement": "diminuto_time_zonename returns the letter of the military time zone for offsets of a whole number of hours from -12 to 12, and J for any other offset.", "quantifier": "every 64-bit offset", "why_tests_cant": "2^64 offsets.", "anchors": ["Diminuto/src/diminuto_time.c:diminuto_time_zonename"]}
{"id": "C66", "title": "A well has room for its objects, aligned and apart", "statement": "diminuto_well_alloc'ed memory: the objects of a new well lie within its allocation, do not overlap each other or the control structure, are at least as large as requested and start at multiples of the requested alignment.", "quantifier": "every size, alignment, page size, line size and count", "why_tests_cant": "Overflow and large alignments only happen for extreme arguments.", "anchors": ["Diminuto/src/diminuto_well.c:diminuto_well_init"]}
{"id": "C67", "title": "Pool objects are recycled by the pool that they are from", "statement": "Allocation from a pool returns the object that has been in it longest, and calls malloc only if the pool is empty; a freed object goes back to the pool it was allocated from, even if it was queued on another list in between; no object is ever in two pools or handed out twice; fini gives exactly the pooled objects back to the heap.", "quantifier": "every number of pools, every history in which only held objects are freed and malloc returns unused memory", "why_tests_cant": "Unbounded histories of several pools.", "anchors": ["Diminuto/src/diminuto_pool.c:diminuto_pool_alloc", "Diminuto/src/diminuto_pool.c:diminuto_pool_free", "Diminuto/src/diminuto_pool.c:diminuto_pool_fini"]}
{"id": "C68", "title": "Buffers keep their bytes", "statement": "No call changes the bytes of a buffer that stays with the application; diminuto_buffer_realloc keeps the bytes up to the lesser of the old capacity and the new size; diminuto_buffer_calloc returns zeroed bytes.", "quantifier": "every history of calls and writes as for C40", "why_tests_cant": "Aliasing shows only after particular histories.", "anchors": ["Diminuto/src/diminuto_buffer.c:diminuto_buffer_realloc", "Diminuto/src/diminuto_buffer.c:diminuto_buffer_calloc", "Diminuto/src/diminuto_bufferpool.c"]}
{"id": "C69", "title": "Meter measures exactly", "statement": "After any calls that succeed, a meter's total, burst, count, interval and sustained rate are those of the events reported, and its peak rate is the greatest rate from one report of events to the next; a call fails exactly if time goes back or the total would overflow; a call that fails because time goes back changes nothing, and after an overflow all calls with events fail.", "quantifier": "every history of times and event counts, every way to round", "why_tests_cant": "Unbounded histories; the overflow needs 2^64 events.", "anchors": ["Diminuto/src/diminuto_meter.c:diminuto_meter_events", "Diminuto/src/diminuto_meter.c:diminuto_meter_sustained"]}
{"id": "C70", "title": "Internet checksum is that of RFC 1071", "statement": "diminuto_inet_checksum returns, as stored in memory, the RFC 1071 checksum of the bytes, whatever the byte order of the host; a message in which it is stored at an even offset has the checksum zero; a change of a single word, other than between 0000 and FFFF, is detected.", "quantifier": "every message, both byte orders", "why_tests_cant": "Tests run on one byte order; carries show only for particular sums; overflow only for large messages.", "anchors": ["Diminuto/src/diminuto_ping4.c:diminuto_inet_checksum"]}
{"id": "C71", "title": "Ping measures the reply to its request", "statement": "diminuto_ping4_datagram_receive reads only bytes that were received (or the zeros after them), accepts exactly echo replies of full length with a valid checksum, and for the reply to a request returns its identifier, its sequence number and the time that has passed since it was sent.", "quantifier": "every datagram, every header length, both byte orders, every identifier, sequence number and time", "why_tests_cant": "Needs a raw socket and forged datagrams.", "anchors": ["Diminuto/src/diminuto_ping4.c:diminuto_ping4_datagram_send", "Diminuto/src/diminuto_ping4.c:diminuto_ping4_datagram_receive"]}
{"id": "C72", "title": "Print hexadecimal can be read back and keeps to its lines", "statement": "What diminuto_phex_emit prints for a sequence of bytes is printable and reads back as the same bytes; no line is longer than the given length, lines are ended only when the next character does not fit, unescaped newlines are kept, and diminuto_phex_limit with an increment of zero ends a line exactly if there is something on it.", "quantifier": "every sequence of bytes, every line length, all eight combinations of options", "why_tests_cant": "The state between calls makes errors show only after particular sequences.", "anchors": ["Diminuto/src/diminuto_phex.c:diminuto_phex_emit", "Diminuto/src/diminuto_phex.c:diminuto_phex_limit"]}
{"id": "C73", "title": "Scatter/gather transfers the segments of a record in order and loses no buffers", "statement": "Over every history of allocating, linking, filling, transferring and freeing records and segments: what is written is the concatenation of the data of the segments in their order, as much of it as the system takes; what is read goes into the segments in order and changes nothing else; enumerate and measure are exact; freeing a segment or record returns every node to the pool and every buffer to the heap exactly once; a transfer that fails returns -1.", "quantifier": "every number of nodes and pools, every history, every behaviour of malloc, writev, readv, sendmsg and recvmsg", "why_tests_cant": "Histories are unbounded; lost buffers show only when memory is exhausted; which segment a byte goes to depends on how both ends are divided.", "anchors": ["Diminuto/src/diminuto_scattergather.c", "Diminuto/inc/com/diag/diminuto/diminuto_scattergather.h"]}
{"id": "C74", "title": "Waiting on the poller reports exactly the registered descriptors whose condition holds", "statement": "Over every history of registering, unregistering, closing, waiting and asking on a poller: a wait returns the number of registered descriptors for which a condition asked for (or an error) holds, and afterwards each ready function returns exactly the descriptors of its set whose condition holds, each once, and then -1; no call has undefined behaviour.", "quantifier": "every history, every descriptor, every set of conditions the kernel may report, every outcome of allocation", "why_tests_cant": "Whether a stale array is used depends on the order of close, register and wait over an unbounded history; the interesting descriptors and kernel reports are too many to enumerate.", "anchors": ["Diminuto/src/diminuto_poll.c", "Diminuto/inc/com/diag/diminuto/diminuto_poll.h", "Diminuto/src/diminuto_mux.c"]}
{"id": "C75", "title": "IPv4 and IPv6 addresses are converted without loss on hosts of either byte order", "statement": "For every IPv4 address, embedding it in IPv6 yields ::ffff:a.b.c.d whatever was in the memory before, and an IPv4 address is extracted from an IPv6 address exactly if it is embedded in it; identify returns the address and port that the bytes of a socket address denote in network byte order, and the socket addresses that are made from an address and a port have those bytes.", "quantifier": "every address and port, both byte orders, every previous content of the memory", "why_tests_cant": "There are 2^32 and 2^128 addresses, and a test runs on one byte order only, on which a missing or doubled swap can cancel out.", "anchors": ["Diminuto/src/diminuto_ipc6.c:38-121", "Diminuto/src/diminuto_ipc4.c:43-65", "Diminuto/inc/com/diag/diminuto/diminuto_ipc6.h"]}
{"id": "C76", "title": "The list of the addresses of a host has every address the resolver returned, and no other", "statement": "For every list the resolver may return: the array has room for what is stored in it, its entries before the terminator are addresses of the list in order, every address of the list is among them, and if all addresses are of one family none is repeated in succession.", "quantifier": "every list of addresses of every family, with elements that have none", "why_tests_cant": "The lists come from the network; where duplicates and odd elements are cannot be enumerated.", "anchors": ["Diminuto/src/diminuto_ipc6.c:194-248", "Diminuto/inc/com/diag/diminuto/diminuto_ipc6.h"]}
{"id": "C77", "title": "The type of an address is that of the block it belongs to", "statement": "address2type returns for every IPv4 and IPv6 address the name of the special block it is in (loopback, private, multicast, broadcast; global, unique local, link local, multicast, NAT64, 6to4, ISATAP, mapped, compatible), on hosts of either byte order.", "quantifier": "every IPv4 and IPv6 address, both byte orders", "why_tests_cant": "2^32 and 2^128 addresses; errors are at the boundaries of blocks and where blocks overlap.", "anchors": ["Diminuto/inc/com/diag/diminuto/diminuto_ipc4.h:95-133", "Diminuto/src/diminuto_ipc4.c:169-186", "Diminuto/inc/com/diag/diminuto/diminuto_ipc6.h:119-236", "Diminuto/src/diminuto_ipc6.c:286-319"]}
{"id": "C78", "title": "A thread object runs its function once per start and a join returns its value", "statement": "Over every interleaving of starts, notifications, joins, timeouts, spurious wakeups, cancellations and exits: the function is called exactly once for each successful start, with the context of that start; an object has at most one thread at a time; the behaviour is defined; the states change only as documented; a join returns success together with the value of the function exactly if the thread has ended, a timeout only if there is a limit, and an error only if the object was not started; a join does not block for ever once the thread has ended.", "quantifier": "every interleaving of any number of callers and starts, every outcome of pthread_create and of the setup of the thread", "why_tests_cant": "Depends on the interleaving of unsynchronised accesses and on wakeups; a test sees a few schedules.", "anchors": ["Diminuto/src/diminuto_thread.c", "Diminuto/inc/com/diag/diminuto/diminuto_thread.h"]}
{"id": "C79", "title": "Notifications of a thread are counted exactly", "statement": "diminuto_thread_notifications returns the number of notifications since it was last called or since the start, over every history; the count saturates.", "quantifier": "every interleaving, every number of notifications", "why_tests_cant": "2^31 notifications are needed to see the limit.", "anchors": ["Diminuto/src/diminuto_thread.c:diminuto_thread_notify", "Diminuto/src/diminuto_thread.c:diminuto_thread_notifications", "Diminuto/inc/com/diag/diminuto/diminuto_thread.h"]}
{"id": "C80", "title": "Numbers and ports are converted exactly", "statement": "diminuto_number_unsigned and diminuto_number_signed accept exactly the strings that are a numeral of C (decimal, octal, hexadecimal, perhaps after white space and a sign) whose value fits, store that value, and return a pointer to the first character after the numeral; diminuto_ipc_port yields the port of the service with that name, or else the one that the numeral denotes, and 0 if there is none or it is too large; the string that diminuto_ipc_port2string writes keeps to the buffer and is read back as the same port.", "quantifier": "every string, every port, every content and size of the buffer, every table of services", "why_tests_cant": "Strings are unbounded; errors are at prefixes, at the limits and at what follows the numeral.", "anchors": ["Diminuto/src/diminuto_number.c:17-41", "Diminuto/src/diminuto_ipc.c:44-80"]}
{"id": "C81", "title": "A walk visits every object below its root exactly once", "statement": "diminuto_fs_walk returns, keeps to its path buffer whatever the system calls and the callback do, and in a file system that does not change calls the callback for exactly the objects at and below the root that can be seen, each once, a directory before its entries, with the right name, path and depth; it stops when the callback returns something else than zero and returns that; it returns 0 only if no system call failed with an error that is not ignored.", "quantifier": "every file system, every behaviour of lstat, opendir, readdir, closedir and the callback", "why_tests_cant": "The trees are unbounded; errors depend on which call fails and on paths near the limit.", "anchors": ["Diminuto/src/diminuto_fs.c:73-266", "Diminuto/inc/com/diag/diminuto/diminuto_fs.h:88-126"]}
{"id": "C82", "title": "mkdir_p makes exactly the directories on the way", "statement": "diminuto_fs_mkdir_p calls mkdir for the path of the first component, the first two, and so on (up to the directory of the path if the last component is not to be a directory), until it fails other than with EEXIST; it does not write out of bounds; existing objects are not changed; if it returns 0 all of these are directories, and it does if mkdir can make them.", "quantifier": "every path, every file system without links, every behaviour of mkdir", "why_tests_cant": "Repeated, leading and trailing separators, and which component exists or fails, make too many cases.", "anchors": ["Diminuto/src/diminuto_fs.c:268-335", "Diminuto/inc/com/diag/diminuto/diminuto_fs.h:128-138"]}
{"id": "C83", "title": "The search along a list of directories finds the first candidate", "statement": "diminuto_path_scan and diminuto_path_find return the path of the file in the first directory of the colon-separated list in which it exists, and NULL if there is none.", "quantifier": "every list, every file name, every behaviour of stat", "why_tests_cant": "Lists are unbounded; the error shows only for names near the limit.", "anchors": ["Diminuto/src/diminuto_path.c:24-88", "Diminuto/inc/com/diag/diminuto/diminuto_path.h"]}
{"id": "C84", "title": "The type of an object is that of its mode", "statement": "diminuto_fs_mode2type returns the documented character for every mode, depending only on the kind of the object.", "quantifier": "every mode", "why_tests_cant": "Most of the sixteen kinds do not exist on a test system.", "anchors": ["Diminuto/src/diminuto_fs.c:41-71", "Diminuto/inc/com/diag/diminuto/diminuto_fs.h:40-78"]}
{"id": "C85", "title": "The text of an endpoint shows the endpoint", "statement": "diminuto_ipc_endpoint2string stays within its buffer, terminates what it writes, and writes (cut to the size of the buffer) exactly the address or addresses and the ports of an IPv4 or IPv6 endpoint in the documented syntax; different endpoints have different texts; the parser reads the text back as the same endpoint.", "quantifier": "every endpoint (all addresses and ports), every buffer, every file system", "why_tests_cant": "2^192 endpoints; which parts are left out depends on which fields are zero or equal.", "anchors": ["Diminuto/src/diminuto_ipc_endpoint.c:600-672", "Diminuto/src/diminuto_ipc4.c:147-167", "Diminuto/src/diminuto_ipc6.c:266-284", "Diminuto/inc/com/diag/diminuto/diminuto_ipc_endpoint.h"]}
{"id": "C86", "title": "A local socket is bound or connected to the path that was given", "statement": "diminuto_ipcl_path resolves a path to the canonical path of the socket, exactly if it names one and fits; diminuto_ipcl_path2string shows it or an asterisk; the address handed to bind(2) or connect(2) is the whole path; diminuto_ipcl_identify reads the path back from an address; diminuto_ipcl_compare orders paths; no call reads or writes out of bounds.", "quantifier": "every path, every buffer, every file system", "why_tests_cant": "Paths at each of four different limits (4096, 255, 108 and the size of the buffer) behave differently.", "anchors": ["Diminuto/src/diminuto_ipcl.c:36-208", "Diminuto/inc/com/diag/diminuto/diminuto_ipcl.h"]}
{"id": "C87", "title": "Making a socket leaves no descriptor behind and binds what was given", "statement": "Each of the eleven functions that make a provider, consumer or peer socket (IPv4, IPv6, local streams, datagrams and packets) either returns a new descriptor of a socket of the right kind, bound to the given address and interface, listening with the given backlog or connected to the given address, or returns something negative, has closed what it opened exactly once and has left no other effect, whichever system call or caller's function fails; if none fails, it succeeds.", "quantifier": "every behaviour of socket, bind, setsockopt, listen, connect, close and the function of the caller; every address, path and backlog", "why_tests_cant": "Failures of bind, listen or setsockopt after a successful socket are hard to cause, and a leaked descriptor does not show in the result.", "anchors": ["Diminuto/src/diminuto_ipc4.c:288-406", "Diminuto/src/diminuto_ipc6.c:425-559", "Diminuto/src/diminuto_ipcl.c:171-343", "Diminuto/src/diminuto_ipcl.c:401-458", "Diminuto/src/diminuto_ipc.c:191-214"]}
{"id": "C88", "title": "The list of interfaces and the lists of their addresses are complete", "statement": "diminuto_ipc_interfaces returns every interface exactly once within one block; diminuto_ipc4_interface and diminuto_ipc6_interface return exactly the addresses of the interface, NULL if there is no such interface.", "quantifier": "every result of getifaddrs(3) and malloc(3), every name", "why_tests_cant": "The interfaces of a test system are fixed, and names repeat in the order of the system.", "anchors": ["Diminuto/src/diminuto_ipc.c:296-356", "Diminuto/src/diminuto_ipc4.c:226-282", "Diminuto/src/diminuto_ipc6.c:357-419", "Diminuto/inc/com/diag/diminuto/diminuto_ipc.h:544-551", "Diminuto/inc/com/diag/diminuto/diminuto_ipc4.h:550-559"]}
{"id": "C89", "title": "Socket options are set as asked or not at all", "statement": "diminuto_ipc_set_status changes exactly the flags of the mask; diminuto_ipc_set_socket, diminuto_ipc_set_send and diminuto_ipc_set_receive set the option to the value (the largest possible one if larger, no change if negative); diminuto_ipc_set_linger sets the least number of seconds that is not less than the ticks, without overflow; on failure nothing is changed and the result is negative.", "quantifier": "every flags, mask, size and number of ticks, every behaviour of the system calls", "why_tests_cant": "2^64 ticks; overflow only near the largest.", "anchors": ["Diminuto/src/diminuto_ipc.c:129-171", "Diminuto/src/diminuto_ipc.c:216-281", "Diminuto/inc/com/diag/diminuto/diminuto_ipc.h:170-310"]}
{"id": "C90", "title": "A GPIO line is found by its name exactly if a controller has it", "statement": "diminuto_line_find_generic returns a path and an offset exactly if below the root there is a character device, whose name begins with the prefix, with a line of that name and no line before it whose name cannot be got, and they are those of such a line; otherwise it returns NULL and stores nothing.  Whatever the system calls return, every file it opens is closed exactly once, and what it finds has been got from a file it opened.", "quantifier": "every tree of files and controllers; every behaviour of the system calls; every name, root, prefix and size of the buffer", "why_tests_cant": "It needs trees of devices, failing ioctl calls, and descriptors that leak only on some paths.", "anchors": ["Diminuto/src/diminuto_line.c:64-168", "Diminuto/src/diminuto_fs.c:73-266", "Diminuto/inc/com/diag/diminuto/diminuto_line.h:130-163"]}
{"id": "C91", "title": "A string for a GPIO line is parsed as documented", "statement": "diminuto_line_parse takes PATH:OFFSET (a path that begins with /, ./ or ../, the last colon, an optional sign that says whether the line is inverted, a number less than 2^32 in C notation) and returns the canonical path if that exists; anything else is an optional sign and a name that is looked for in /dev/gpiochip*; otherwise NULL is returned and neither offset nor inversion is stored.", "quantifier": "every string, buffer, behaviour of realpath and stat, every tree of files and controllers", "why_tests_cant": "There are infinitely many strings; the failing ones have white space, second signs or very large numbers.", "anchors": ["Diminuto/src/diminuto_line.c:178-298", "Diminuto/inc/com/diag/diminuto/diminuto_line.h:173-189"]}
{"id": "C92", "title": "GPIO lines are requested, read and written as asked", "statement": "diminuto_line_open_generic asks the kernel for exactly the given lines with the given flags, debounces all or none, closes the controller whatever happens, and refuses bad arguments without a system call; get and put return and change exactly the lines of the mask, never those of other descriptors; what is put is what is got; diminuto_line_read returns 1 or 0 exactly for a whole event with a rising or falling edge.", "quantifier": "every list of lines, flags, time, mask and bits; every behaviour of the system calls and split of the events", "why_tests_cant": "It needs GPIO hardware, and events that arrive in parts.", "anchors": ["Diminuto/src/diminuto_line.c:304-535", "Diminuto/inc/com/diag/diminuto/diminuto_line.h:81-95", "Diminuto/inc/com/diag/diminuto/diminuto_line.h:195-300"]}
{"id": "C93", "title": "A delay lasts as long as asked, whatever signals arrive", "statement": "When diminuto_delay returns, the time that has passed and the ticks it returns together are at least the ticks asked for; it returns no more than was asked for, and zero if it is not interruptible.  It returns if only finitely many signals arrive, asks nanosleep(2) only for valid times that are not longer than the delay, and a number of ticks that is negative as a signed number is returned at once.", "quantifier": "every number of ticks, every sequence of signals, every behaviour of nanosleep(2) that is allowed", "why_tests_cant": "It needs signals at every moment of a sleep, and delays of centuries.", "anchors": ["Diminuto/src/diminuto_delay.c:21-52", "Diminuto/inc/com/diag/diminuto/diminuto_delay.h:25-62"]}
{"id": "C94", "title": "Physical memory is mapped and unmapped exactly", "statement": "If diminuto_map_map succeeds, every byte that was asked for is at the pointer it returns, in order, and nothing else is changed but the rest of the pages; diminuto_map_unmap restores the memory and clears the variables; if either fails nothing is changed.  The device is closed in every case.  diminuto_map_minimum sets the minimum address exactly if it returns success, and closes what it opens once.", "quantifier": "every address, length and page size; every behaviour of the system calls", "why_tests_cant": "It needs the superuser and a device; the failing lengths are near 2^64.", "anchors": ["Diminuto/src/diminuto_map.c:24-143", "Diminuto/inc/com/diag/diminuto/diminuto_map.h:51-83"]}
{"id": "C95", "title": "A descriptor table has one place for every descriptor", "statement": "diminuto_fd_map_alloc returns a table in which every pointer is null; diminuto_fd_map_ref returns a place in it for exactly the descriptors from 0 to the count less one, a different one for each; storing through it changes only the pointer of that descriptor.", "quantifier": "every count, every descriptor, every memory that is allocated", "why_tests_cant": "The failing counts are -1 and near 2^61, and allocation that fails.", "anchors": ["Diminuto/src/diminuto_fd.c:211-227", "Diminuto/inc/com/diag/diminuto/diminuto_fd.h:157-187"]}
{"id": "C96", "title": "A path is expanded into a buffer of any size", "statement": "diminuto_fs_expand stores the canonical path, terminated, within the size of the buffer, and changes nothing behind it; if the path does not exist or the size is zero it returns NULL and stores nothing.", "quantifier": "every path, canonical path, buffer and size", "why_tests_cant": "It needs buffers of every size, and bytes behind them that are looked at.", "anchors": ["Diminuto/src/diminuto_fs.c:337-356"]}
{"id": "C97", "title": "A pin is configured by exactly the documented writes", "statement": "A configuration of a pin (export, unexport, polarity, edge, direction, initial value) succeeds exactly if the documented string was written to the documented file, after attempts that failed for reasons that may go away, with a delay between two attempts and none after the last; every stream that was opened is closed, whatever happens.  diminuto_pin_setup exports, sets the direction and opens the value, in this order; what is put is what is got.", "quantifier": "every pin, string, root, number of tries; every behaviour of the calls", "why_tests_cant": "It needs hardware, and files that appear late or fail at one of five calls.", "anchors": ["Diminuto/src/diminuto_pin.c:40-411", "Diminuto/inc/com/diag/diminuto/diminuto_pin.h:176-406"]}
{"id": "C98", "title": "I2C operations of several threads happen one after the other", "statement": "However threads are scheduled and cancelled, the get, set, send, get_set and set_get operations they call take place one after the other, each as if there were no other thread, in an order that agrees with the order of calls of each thread; each is told the result of its operation.  A thread that is cancelled releases the mutex, and no thread waits for ever.", "quantifier": "every number of threads, every sequence of operations of each, every schedule, every point of cancellation, every behaviour of the bus", "why_tests_cant": "There are infinitely many schedules, and a cancellation must hit one call.", "anchors": ["Diminuto/src/diminuto_i2c.c:116-219", "Diminuto/src/diminuto_criticalsection.c:15-56", "Diminuto/inc/com/diag/diminuto/diminuto_criticalsection.h:49-85"]}
{"id": "C99", "title": "I2C operations get and set registers", "statement": "An operation makes its calls in order until one fails; it succeeds exactly if each has transferred at least a byte.  For devices with registers a get returns the content of the registers and changes none, for every prior state of the bus; the name of the device is that of the bus.", "quantifier": "every state of every device with registers, every register, size and data; every behaviour of the system calls", "why_tests_cant": "It needs hardware in every state.", "anchors": ["Diminuto/src/diminuto_i2c.c:29-219", "Diminuto/inc/com/diag/diminuto/diminuto_i2c.h:32-134"]}
{"id": "C100", "title": "Critical sections are serial", "statement": "However the threads of a process are scheduled and cancelled, the bodies between DIMINUTO_CRITICAL_SECTION_BEGIN (or TRY) and END were executed one after the other, each as if there had been no other thread, in an order that keeps that of every thread; a TRY that fails does nothing and never waits; a cancelled thread gives the mutex back.  diminuto_atomic_apply, with a functor that loads, adds and stores in separate steps, loses no update and returns the value before.", "quantifier": "every body (any program of steps on any shared state), every number of threads, every list of sections, every schedule, every cancellation", "why_tests_cant": "Tests run a few schedules.", "anchors": ["Diminuto/inc/com/diag/diminuto/diminuto_criticalsection.h:44-85", "Diminuto/src/diminuto_criticalsection.c:15-56", "Diminuto/src/diminuto_atomicapply.c:16-25"]}
{"id": "C101", "title": "The log mask is set only by what is a mask", "statement": "Each priority has one bit of the mask, and a message is enabled exactly if its bit is set; a message of no known priority is enabled unless the mask is zero.  diminuto_log_setmask and diminuto_log_importmask set the mask to the number in the environment or in the first line of the file (~0 is all), whatever base it is in, and leave the mask alone if there is none; the file is closed if it was opened.", "quantifier": "every mask, priority, environment, path and file", "why_tests_cant": "The failing values are empty strings, blank first lines, and numbers of more than 32 bits.", "anchors": ["Diminuto/src/diminuto_log.c:91-220", "Diminuto/inc/com/diag/diminuto/diminuto_log.h:92-107"]}
{"id": "C102", "title": "A logged message is one line, written whole and not mixed with others", "statement": "What diminuto_log_vwrite writes is the header and the text, ended by one newline, at most 8190 bytes before it; nothing outside of the buffer is touched.  All of it is written, in order, however few bytes the kernel takes at a time, and messages of other threads are not mixed in.  What could not be written is counted in diminuto_log_lost.", "quantifier": "every header and text; every kernel that is honest; every number of threads and schedule", "why_tests_cant": "It needs messages of exactly the size of the buffer, a kernel that takes few bytes at a time, signals and failures.", "anchors": ["Diminuto/src/diminuto_log.c:349-493"]}
{"id": "C103", "title": "A message goes where the strategy says, and errno survives", "statement": "With the strategies for stderr, syslog and suppression messages go there; with the automatic one they go to the log file descriptor if it is a file or the process is interactive, and to the system log if it is a daemon; once one has gone to the system log, all later ones do.  No call changes errno, and diminuto_log_perror reports the errno at its call.  Every call returns.", "quantifier": "every strategy, descriptor, process and sequence of messages", "why_tests_cant": "The process has to become a daemon, or to have closed its descriptors.", "anchors": ["Diminuto/src/diminuto_log.c:222-258", "Diminuto/src/diminuto_log.c:495-646", "Diminuto/inc/com/diag/diminuto/diminuto_log.h:395-405"]}
{"id": "C104", "title": "The log stream follows the log descriptor and never closes a standard stream", "statement": "diminuto_log_stream returns a stream for the log file descriptor, or NULL because fdopen(3) failed; it closes the stream that it replaces, and only that, and never stderr, stdout or a stream on descriptors 1 or 2; it opens no stream for a descriptor that has one.", "quantifier": "every descriptor, stream and result of fdopen(3)", "why_tests_cant": "It needs streams that share descriptors.", "anchors": ["Diminuto/src/diminuto_log.c:280-334"]}
{"id": "C105", "title": "Log lines sort by time and tell their origin", "statement": "The lines of two messages logged at different times after the Epoch compare, as text, as their times do, for all times that the clock can have; equal headers are those of the same time, host, priority, process and thread.", "quantifier": "every pair of times from 0 to 2^63-1 nanoseconds, every host name without a quote, every priority, process, thread and text", "why_tests_cant": "There are 2^126 pairs of times.", "anchors": ["Diminuto/src/diminuto_log.c:370-410", "Diminuto/src/diminuto_time.c:324-356"]}
{"id": "C106", "title": "Bit arrays", "statement": "DIMINUTO_BITS_GET yields 1 or 0 for a bit of the array; DIMINUTO_BITS_SET and DIMINUTO_BITS_CLEAR change this bit and no other; an array of DIMINUTO_BITS_COUNT elements has room for all the bits and is the shortest one that has.", "quantifier": "every width of elements, array, and bit number; every number of bits below 2^64 less the width", "why_tests_cant": "The failing bit is the most significant one of an element of a signed type.", "anchors": ["Diminuto/inc/com/diag/diminuto/diminuto_bits.h:36-101"]}
{"id": "C107", "title": "Swap, absolute value, minimum and maximum of a type", "statement": "DIMINUTO_SWAP exchanges two variables and changes no other; abs8 to abs64 yield the absolute value; diminuto_minimumof and diminuto_maximumof yield the least and the greatest value of a type.", "quantifier": "every width and value; every pair of variables", "why_tests_cant": "The failing values are single points: the least value, and a variable that is swapped with itself.", "anchors": ["Diminuto/inc/com/diag/diminuto/diminuto_swap.h:26-31", "Diminuto/inc/com/diag/diminuto/diminuto_absolute.h:17-26", "Diminuto/inc/com/diag/diminuto/diminuto_minmaxof.h:38-52"]}
{"id": "C108", "title": "Comparators are total orders", "statement": "diminuto_compare_strings is the lexicographic order of the bytes of the strings, and is reflexive, antisymmetric, transitive and total, as Tree and Store need it.  diminuto_compare_pointers is the order of the pointers.", "quantifier": "every strings and pointers", "why_tests_cant": "The failing pointers are at least 2 GB apart.", "anchors": ["Diminuto/src/diminuto_comparator.c:17-25", "Diminuto/inc/com/diag/diminuto/diminuto_store.h:159-162"]}
{"id": "C109", "title": "Testimony is true or false as its words say", "statement": "diminuto_testify gives 1 for the affirmative words of its documentation and for numbers other than zero, 0 for the negative ones and for zero, in any mixture of upper and lower case, and the default for what is missing, empty or a number that something follows; nothing else than 1, 0 or the default is returned.", "quantifier": "every string and default", "why_tests_cant": "The failing numbers are multiples of 2^32.", "anchors": ["Diminuto/src/diminuto_testify.c:18-75"]}
{"id": "C110", "title": "A serial port has the settings that have been asked for", "statement": "diminuto_serial_set refuses with EINVAL what cannot be asked for, and with ENOTTY what is not a terminal, and then has changed nothing.  If it returns 0 then the port has the speed, data bits, parity, stop bits, modem control and flow control that have been asked for, receives, and is not processed by the terminal driver; all other settings are as they were.  It fails exactly if getting or setting the attributes fails.", "quantifier": "every argument, attributes of the terminal before, and terminal driver", "why_tests_cant": "It needs terminals with other settings, and a driver that refuses some of them.", "anchors": ["Diminuto/src/diminuto_serial.c:22-231", "Diminuto/inc/com/diag/diminuto/diminuto_serial.h:28-100"]}
{"id": "C111", "title": "Raw serial ports, carrier, and bytes available", "statement": "After diminuto_serial_raw the port receives eight bits without parity and without any processing, and ignores the modem lines; its speed and stop bits are kept.  diminuto_serial_status tells 1 or 0 for the carrier, diminuto_serial_available the number of bytes, diminuto_serial_wait 0, and each of them -1 exactly if the system call fails or it is not a terminal.", "quantifier": "every attributes of the terminal before, and every driver", "why_tests_cant": "It needs hardware.", "anchors": ["Diminuto/src/diminuto_serial.c:233-392", "Diminuto/inc/com/diag/diminuto/diminuto_serial.h:100-163"]}
{"id": "C112", "title": "A daemon is started exactly if success is reported", "statement": "For diminuto_daemon, diminuto_service and diminuto_system: if the parent succeeds (exits with 0, returns > 0, returns 0) then the grandchild has been started, has lost its parent, and the child is no zombie; if it fails then there is no daemon; to the grandchild the function returns 0 (diminuto_system executes the command and does not return); the parent of diminuto_daemon does not return; no process waits for ever.", "quantifier": "every interleaving of the three processes, failure of fork(2), interruption, signal that kills the child, and disposition of SIGCHLD", "why_tests_cant": "Interleavings of three processes with failures of fork(2) cannot be brought about.", "anchors": ["Diminuto/src/diminuto_daemon.c:67-149", "Diminuto/src/diminuto_daemon.c:311-477", "Diminuto/inc/com/diag/diminuto/diminuto_daemon.h:20-44"]}
{"id": "C113", "title": "A daemon lets go of its terminal", "statement": "A daemon is a session leader in the root directory with umask 0, ignores SIGHUP, SIGALRM and the signals of terminals, ends with SIGTERM, and leaves other signals as they were.  Its descriptors 0, 1 and 2 refer to the null device, the first for reading and the others for writing, and all others are closed; without a path (diminuto_system) the first three are inherited.", "quantifier": "every process: descriptors, limit, standard streams, signals; every number of descriptors", "why_tests_cant": "It needs processes without a free descriptor or with closed standard streams.", "anchors": ["Diminuto/src/diminuto_daemon.c:168-300"]}
{"id": "C114", "title": "Serialized sections exclude each other", "statement": "At most one thread at a time is between DIMINUTO_SERIALIZED_SECTION_BEGIN and END (or the _TRY forms) of one spin lock; the effect of all sections is that of executing them one after the other; a thread that tries enters if the lock is free and goes on without entering if it is not; as long as a thread has something to do some thread can go on, also after a thread has been cancelled.", "quantifier": "every number of threads, bodies of any number of steps over any state, and interleaving of their steps", "why_tests_cant": "The failing interleavings and the point of a cancellation are chosen by the scheduler.", "anchors": ["Diminuto/inc/com/diag/diminuto/diminuto_serializedsection.h:36-75"]}
{"id": "C115", "title": "Uninterruptible sections hold back their signals", "statement": "The body of a section is not interrupted by any of its signals; at the end exactly those signals are blocked that were so at the beginning, also if the thread is cancelled; a signal that arrives in the body is handled after it; no signal is lost; a list that has something that is no signal fails and changes nothing.", "quantifier": "every program of nested sections, arrivals of signals, changes of the mask and cancellations; every list of signals; every mask", "why_tests_cant": "The failing states depend on when signals arrive; SIGKILL cannot be observed by the process that gets it.", "anchors": ["Diminuto/src/diminuto_uninterruptiblesection.c:17-54", "Diminuto/inc/com/diag/diminuto/diminuto_uninterruptiblesection.h:44-82"]}
{"id": "C116", "title": "Conditions and mutexes", "statement": "At most one thread has the mutex; only the thread that has it can unlock it or wait; a wait gives the mutex to others and on return the thread has it again as often as before; diminuto_condition_signal wakes all the threads that wait; a handoff of a variable by lock, test, wait, unlock and lock, set, signal, unlock never loses a signal and never gets stuck; diminuto_condition_wait_until returns ETIMEDOUT only when the given time has come.", "quantifier": "every number of threads, sequence of calls, interleaving, spurious wakeup, and time", "why_tests_cant": "A lost signal needs one of very many interleavings; the failing times are beyond the year 2262.", "anchors": ["Diminuto/src/diminuto_condition.c:28-117", "Diminuto/src/diminuto_mutex.c:26-120"]}
{"id": "C117", "title": "The search for the nearest node", "statement": "diminuto_store_find_close returns null exactly if the store is empty; otherwise the node that it returns is a neighbour of the target: no other node is strictly between them in the order of the keys, and the value that it stores tells on which side the node is, and is zero exactly if its key is that of the target.", "quantifier": "every store that can be reached by insertions and removals, every order, and every target", "why_tests_cant": "A search that turns the wrong way once is seen only with certain shapes of the tree and certain targets between the keys.", "anchors": ["Diminuto/inc/com/diag/diminuto/diminuto_store.h:206-209", "Diminuto/src/diminuto_tree.c:564-584"]}
{"id": "C118", "title": "Pings with IPv6 and their replies", "statement": "What diminuto_ping6_datagram_send sends is a request that the peer's reply to, received by diminuto_ping6_datagram_recv, is recognised with the same identifier, sequence number and time; anything else that arrives is not taken for one; no byte is read beyond those that were received; the elapsed time is returned only if the packet is long enough to contain a time.", "quantifier": "every content and length of a received packet, every identifier, sequence number and time", "why_tests_cant": "The failing packets are short replies that a test with a well behaved peer never produces.", "anchors": ["Diminuto/src/diminuto_ping6.c:48-137"]}
{"id": "C119", "title": "Children are reaped exactly once", "statement": "Every termination of a child is reported exactly once, with its own status, or still to be reported; a call that returns no identifier stores nothing and removes no child; the loop that reaps until zero, entered when diminuto_reaper_check says so, forgets no child although many may terminate for one signal and at any time; diminuto_reaper_wait returns an identifier or a value less than zero.", "quantifier": "every sequence of creations, terminations, signals, checks and calls, and every interleaving of them", "why_tests_cant": "That signals are merged, and that a child terminates between the last reap and the next check, depends on the scheduler.", "anchors": ["Diminuto/src/diminuto_reaper.c:43-111", "Diminuto/inc/com/diag/diminuto/diminuto_reaper.h:29-70"]}
{"id": "C120", "title": "Whether the kernel is a real-time kernel", "statement": "diminuto_realtime_is_supported returns a value greater than zero exactly if there is the file and it begins with a number greater than zero, zero if there is no such file or it holds something else, and a value less than zero exactly if the file cannot be opened, read or closed; a file that has been opened is closed; the value depends on nothing else.", "quantifier": "every content of the file, every failure to open, read or close, and every value of errno before", "why_tests_cant": "The kernel of the test has one file with one content; errno before the call is what the tests before it have left.", "anchors": ["Diminuto/src/diminuto_realtime.c:21-106"]}
{"id": "C121", "title": "Modules are loaded and unloaded", "statement": "A module is open as often as it has been loaded more than unloaded; diminuto_module_handle returns the handle of a module exactly if it is loaded; an unload returns null exactly if the module was open; a forced unload ends, returns null, and leaves the module closed.", "quantifier": "every number of loads and unloads of every module, on platforms with each behaviour of dlopen(3) and dlclose(3)", "why_tests_cant": "What happens when a handle is closed once too often depends on the library, and the test runs with one of them; the test asserts nothing about diminuto_module_handle for a module that is loaded.", "anchors": ["Diminuto/src/diminuto_module.c:23-137", "Diminuto/inc/com/diag/diminuto/diminuto_module.h:35-79"]}
{"id": "C122", "title": "The memory mapped driver reads, writes, sets and clears", "statement": "A read copies the word and changes nothing; a write, set or clear changes exactly the bits that it should and no byte outside of the word; a failure changes no register; wrong widths and alignments are refused without an access; the operations of any number of processes are atomic.", "quantifier": "every content of the registers, offset, width, datum and mask, every command, every number of processes and every interleaving", "why_tests_cant": "The driver runs in the kernel and has no unit test; a lost update needs an unlucky interleaving.", "anchors": ["Diminuto/drv/diminuto_mmdriver.c:154-345", "Diminuto/drv/diminuto_kernel_datum.c:23-83", "Diminuto/inc/com/diag/diminuto/diminuto_mmdriver.h:62-99"]}
{"id": "C123", "title": "The memory mapped driver stays inside of its registers", "statement": "No I/O control accesses memory outside of the registers, and none has undefined behaviour, whatever the application passes.", "quantifier": "every length of the registers, every offset, width and command", "why_tests_cant": "An access just after the registers usually succeeds and is not seen.", "anchors": ["Diminuto/drv/diminuto_mmdriver.c:277-345"]}
{"id": "C124", "title": "Loading and unloading of the memory mapped driver", "statement": "diminuto_kernel_map maps whole pages that contain the physical memory that was asked for, and the base is its first byte; registers that are given exclusively are given to nobody else; after the driver has been unloaded, or could not be loaded, nothing is mapped, registered or in use that was not before.", "quantifier": "every range of physical memory, every content of the kernel's lists, and every failure of the kernel's functions", "why_tests_cant": "The failing paths need failures of the kernel's functions, and what is left behind is seen only when the driver is loaded again.", "anchors": ["Diminuto/drv/diminuto_kernel_map.c:21-104", "Diminuto/drv/diminuto_mmdriver.c:508-584"]}
{"id": "C125", "title": "The checksum of the environment of U-Boot", "statement": "The checksum that getubenv computes is CRC-32 of IEEE 802.3 of the data, no memory beyond the data and no entry beyond the end of its table is read, it can be carried on from part to part, and any change within 32 bits that follow each other changes it.", "quantifier": "every content and length of the data, and every change within 32 bits at any position", "why_tests_cant": "One wrong entry of 256 in the table is seen only with data that uses it together with a second implementation; there are more bursts than can be tried.", "anchors": ["Diminuto/bin/getubenv.c:68-142"]}
{"id": "C126", "title": "What getubenv prints", "statement": "Without an argument getubenv prints each entry of a valid environment on a line, in order, and nothing else; with the name of an entry it prints the value of the first entry with that name, and fails with a status of 4 if there is none; an environment whose checksum does not match is not printed; the behaviour is defined for every content of the memory with a matching checksum.", "quantifier": "every environment, every name, and every content of the memory", "why_tests_cant": "The program needs the flash memory of one board at a fixed address; which names collide depends on the entries in it.", "anchors": ["Diminuto/bin/getubenv.c:149-225"]}
{"id": "C127", "title": "What wipe leaves on a device", "statement": "If wipe exits with a status of zero, everything that can be read from the device is the pattern for the seed, is as long as what was written, and no mismatch was reported, whatever the device did when it was written; and on a device without failures wipe ends, exits with a status of zero, and has replaced every byte of the device; for all sizes that can be given as options the behaviour is defined.", "quantifier": "every device, capacity, seed, and sizes of the block, the sector and the modulo; both orders of bytes", "why_tests_cant": "The program needs a device whose contents can be lost, and the failures of devices at each of their writes and reads cannot be provoked; capacities that do not fit the sizes are as many as there are devices.", "anchors": ["Diminuto/bin/wipe.c:100-101", "Diminuto/bin/wipe.c:172-379"]}
{"id": "C128", "title": "The pattern of wipe and the offsets of mismatches", "statement": "The words of the pattern differ at any two offsets of a device of up to 2^64 bytes, for every seed, so that a device that returns the same word at two offsets is always found out; and each mismatch is reported with the offset of the word that differs.", "quantifier": "every seed and every pair of offsets; every block and every set of mismatches in it", "why_tests_cant": "The period of the generator is 2^61 words, and cannot be run through; which offsets are reported is seen only with a device that fails.", "anchors": ["Diminuto/bin/wipe.c:100-101", "Diminuto/bin/wipe.c:331-340"]}
{"id": "C129", "title": "The rates of the shaper tool", "statement": "shaper keeps to its contract: in every interval of time it commits at most one block more than the sustained rate allows for the interval, the jitter and the maximum burst, and at most one block more than the peak rate allows for the interval and the jitter, at every point of every run, whatever arrives and whatever the reader does; once it has waited for the interval that is asked for nothing more is asked for; and without a rate the traffic is not shaped.", "quantifier": "every clock that does not go backwards, every input, reader and block size up to 2^32, every pair of rates, every maximum burst size up to 2^32 and every jitter up to 10^12 microseconds", "why_tests_cant": "The intervals of a run are as many as there are pairs of times, and a test sees the rates only as an average, with the delays of one machine; the corners of the options are combinations of four numbers.", "anchors": ["Diminuto/bin/shaper.c:73-74", "Diminuto/bin/shaper.c:109-236", "Diminuto/bin/shaper.c:269-273", "Diminuto/bin/shaper.c:281-371"]}
{"id": "C130", "title": "The data of the shaper tool", "statement": "What shaper writes is at every point the beginning of what it has read, a status of zero means that it has written everything, and the total and the checksum that it reports are those of what it has written.", "quantifier": "every input with short reads, interruptions and failures, every reader, clock, block size and contract", "why_tests_cant": "The places at which a pipe takes part of a block or fails cannot be chosen in a test.", "anchors": ["Diminuto/bin/shaper.c:281-407"]}
{"id": "C131", "title": "Conversion of numbers by the tools dec, oct, hex, ntohs, htons, ntohl and htonl", "statement": "Each of the commands prints for each of its arguments, or lines of its input, a line with the number in its base, or with its bytes exchanged; what dec, oct and hex print can be given to any of the commands, which then prints the same as for the original; exchanging the bytes twice gives the number; and a status of zero means that the numbers that were given are those that were printed.", "quantifier": "every list of arguments, every input, all numbers of 64 bits, both orders of bytes", "why_tests_cant": "There are 2^64 numbers, and the composition of two commands multiplies the forms in which they can be given.", "anchors": ["Diminuto/bin/dec.c:42-146", "Diminuto/src/diminuto_number.c:17-28"]}
{"id": "C132", "title": "Addresses that ipcalc prints", "statement": "With an address, a mask and a host part ipcalc prints the address with that host part in the network of the address; with an address and a mask the last address of the network; with an address the mask of its class; and an address only if it has been given one to three addresses.", "quantifier": "all addresses, host parts and lengths of the prefix, both orders of bytes, every list of arguments, and every implementation of the conversions between text and addresses", "why_tests_cant": "There are 2^64 pairs of addresses and host parts for each of 33 masks.", "anchors": ["Diminuto/bin/ipcalc.c:49-97"]}
{"id": "C133", "title": "Manipulation of physical memory by memtool", "statement": "memtool performs the operations of its options in their order, each on the object of the given size at the physical address that is the offset, or the address of the region plus the offset: it loads and stores exactly once for the setting and clearing of bits, loads once for reading and stores once for writing, changes exactly the bits that are meant, prints what it reads, stops where a condition says so, accesses nothing else, and leaves nothing mapped; an argument that is not a number ends it with a status of one and no further access.", "quantifier": "every list of options, every machine with a page size that is a multiple of eight, every behaviour of the calls that map memory, and every device behind the addresses", "why_tests_cant": "The effects depend on every combination of options, on the alignment of the addresses with the pages, and on devices for which each access counts.", "anchors": ["Diminuto/bin/memtool.c:44-330", "Diminuto/src/diminuto_map.c:24-83"]}
{"id": "C134", "title": "The two styles of options of memtool", "statement": "Options that name a region by address and length and then use offsets into it, and options that use the addresses themselves, have the same effects on the devices, print the same, and have the same status.", "quantifier": "all addresses, regions, and lists of operations, delays and conditions", "why_tests_cant": "One style maps the region once, the other maps the page of each object and unmaps it again; that the same addresses result depends on the rounding to pages for each of them.", "anchors": ["Diminuto/bin/memtool.c:15-20", "Diminuto/bin/memtool.c:69-118"]}
{"id": "C135", "title": "Datagrams are written to the line as frames by conestoga", "statement": "conestoga writes each datagram that it receives, cut to the size of its buffer, to the serial line as one valid frame, in the order in which they are received, with consecutive sequence numbers from zero, whatever arrives on the line at the same time.", "quantifier": "every sequence of events (datagrams from any senders, octets on the line in any pieces, time outs), every behaviour of the line and the network, and every content of the memory", "why_tests_cant": "The two directions share the framer and the loop; that neither disturbs the other is a statement about all interleavings.", "anchors": ["Diminuto/bin/conestoga.c:438-564", "Diminuto/src/diminuto_framer.c:774-971"]}
{"id": "C136", "title": "Frames from the line are sent as datagrams by conestoga", "statement": "Every datagram that conestoga sends is what one valid frame from the line carries, and is sent once, by a client to the service and by a server to the sender of the last datagram; and of valid frames that arrive, in whatever pieces, each is sent, in their order.", "quantifier": "every sequence of events (datagrams from any senders, octets on the line in any pieces, time outs), every behaviour of the line and the network, and every content of the memory", "why_tests_cant": "Octets from the line arrive in arbitrary pieces, between datagrams, and damaged; a test can only try some of them, and the memory behind a short frame is usually zero.", "anchors": ["Diminuto/bin/conestoga.c:438-564", "Diminuto/src/diminuto_framer.c:774-971", "Diminuto/src/diminuto_ipc4.c:408-461"]}
{"id": "C137", "title": "What stops conestoga", "statement": "conestoga stops only if it is told to, or if the line or the socket fails or ends: nothing that a peer sends on the network or on the line stops it.", "quantifier": "every sequence of events and every behaviour of the line and the network", "why_tests_cant": "It is a statement about every event in every state of the loop.", "anchors": ["Diminuto/bin/conestoga.c:438-564", "Diminuto/src/diminuto_ipc4.c:408-461"]}
{"id": "C138", "title": "Lines that are typed are written to the device as frames by framertool", "statement": "framertool writes what is typed on its standard input to the device, each line with its newline as one valid frame, in their order, with consecutive sequence numbers from zero, whatever arrives on the device at the same time; nothing of it is lost.", "quantifier": "every sequence of events (what is typed and what arrives, in any pieces, time outs, any order of the descriptors), every behaviour of the device and the output, and every content of the memory", "why_tests_cant": "The two directions share the framer, the stream and the loop; that neither disturbs the other is a statement about all interleavings.", "anchors": ["Diminuto/bin/framertool.c:351-490", "Diminuto/src/diminuto_framer.c:774-971"]}
{"id": "C139", "title": "Frames from the device are written to the standard output by framertool", "statement": "Everything that framertool writes to its standard output is what a valid frame from the device carries, whole and once; of valid frames that arrive, in whatever pieces, each is written, in their order; and so the text on the standard output at one end of the line is the text that is typed at the other.", "quantifier": "every sequence of events (what is typed and what arrives, in any pieces, time outs, any order of the descriptors), every behaviour of the device and the output, and every content of the memory", "why_tests_cant": "Octets arrive in arbitrary pieces, between lines that are typed, and damaged, and the output may fail at any of them; a test can only try some.", "anchors": ["Diminuto/bin/framertool.c:351-490", "Diminuto/src/diminuto_framer.c:774-971"]}
{"id": "C140", "title": "framertool is defined, and what ends it", "statement": "Whatever is typed and whatever arrives, the behaviour of framertool is defined, and it ends only if it is told to, or if the device ends or fails, or if its input has ended and its output has failed.", "quantifier": "every sequence of events and every behaviour of the device and the output", "why_tests_cant": "It is a statement about every event in every state of the loop.", "anchors": ["Diminuto/bin/framertool.c:351-490"]}
{"id": "C141", "title": "pintool acts on the selected pin, with one stream at a time, and tells failures", "statement": "Whatever an option of pintool does, it does to the pin of the last -p, through the stream that is open for it; there is never more than one stream, none is used after it was closed, and none is left open at the end; if the exit code is zero nothing has failed; the behaviour is defined.", "quantifier": "every list of options with any arguments, every behaviour of the system calls, and every number of turns of the monitors", "why_tests_cant": "Options can be given in any order and number, and streams are kept from one to another; a test can only try some orders, and hardly the failures.", "anchors": ["Diminuto/bin/pintool.c:93-711"]}
{"id": "C142", "title": "pintool reads and writes what its options say", "statement": "On a machine on which everything works, the values that pintool prints and the values of the pins at the end are those that its options mean, read one after the other: -s, -c and -w set the selected pin, -h and -l set it with its direction, -r prints it, -t and -f go on only if the last value read or written was one or zero, and -u delays for the time in microseconds.", "quantifier": "every list of options that stand for commands, and every value of the pins at the beginning", "why_tests_cant": "The meaning is a statement about all sequences of options, of which there is no bound.", "anchors": ["Diminuto/bin/pintool.c:93-711"]}
{"id": "C143", "title": "The monitors of pintool report the changes of a pin", "statement": "pintool -b prints the first level and then each level that three samples in a row have agreed on, whenever it changes; pintool -m and -M print, or pass to a command with the pin and the level before, each sample, or with -U each sample that differs from the one before, and with -1 the level at the beginning; they go on until something fails.", "quantifier": "every sequence of samples, every behaviour of the system calls, every number of turns", "why_tests_cant": "The monitors run without an end over arbitrary levels.", "anchors": ["Diminuto/bin/pintool.c:254-303", "Diminuto/bin/pintool.c:399-513", "Diminuto/src/diminuto_cue.c:26-33"]}
{"id": "C144", "title": "linetool opens the line that was asked for, one at a time, closes it, and tells failures", "statement": "linetool opens a line only for -x, with the device, the offset, the flags and the debounce period that the last options with a say in each have asked for; whatever is read, written or waited for is the line that the context names; there is never more than one line open, and it is closed at the end; if the exit code is zero nothing has failed; the behaviour is defined.", "quantifier": "every list of options with any arguments, every behaviour of the system calls, and every number of turns of the monitors", "why_tests_cant": "Options can be given in any order and number, and the context and the descriptor are kept from one to another; a test can only try some orders, and hardly the failures.", "anchors": ["Diminuto/bin/linetool.c:147-709", "Diminuto/src/diminuto_line.c:377-388"]}
{"id": "C145", "title": "linetool reads and writes what its options say", "statement": "On a machine on which everything works, the values that linetool prints and the levels of the lines at the end are those that its options mean, read one after the other: -s, -c and -w write the open line, -r prints it, both through its sense (active high or low), -t and -f go on only if the last value was one or zero, and -u delays for the time in microseconds.", "quantifier": "every list of options that stand for commands that can be followed, and all levels of the lines at the beginning", "why_tests_cant": "The meaning is a statement about all sequences of options, of which there is no bound.", "anchors": ["Diminuto/bin/linetool.c:147-709"]}
{"id": "C146", "title": "The monitors of linetool report the changes of a line, and end when nobody reads", "statement": "linetool -b prints the first level and then each level that three samples in a row have agreed on, whenever it changes; linetool -m prints, or passes to a command with the device, the line and the level before, each edge, or with -U each edge that differs from the one before, and with -1 the level at the beginning, and waits for the time it is given; whatever is printed is flushed at once; once it is found that the reader of the output has gone, nothing more is done than to close the line.", "quantifier": "every sequence of samples and edges, every behaviour of the system calls, every moment at which the reader goes, every number of turns", "why_tests_cant": "The monitors run without an end over arbitrary levels, and the moment at which a reader goes cannot be chosen in a test.", "anchors": ["Diminuto/bin/linetool.c:322-363", "Diminuto/bin/linetool.c:421-547", "Diminuto/src/diminuto_cue.c:26-33", "Diminuto/src/diminuto_pipe.c:43-80"]}
{"id": "C147", "title": "serialtool prepares the port as its options say", "statement": "Each setting of serialtool is what the last option with a say in it has asked for; a terminal is raw and has the rate, data bits, parity, stop bits, modem control and flow control that have been asked for before anything is sent or received; a rate that does not exist, a device that cannot be opened, and with -T one that is not a terminal are refused; -? does nothing.", "quantifier": "every list of options with any arguments, every behaviour of the system calls, every previous setting of the port", "why_tests_cant": "There are more combinations of options in any order than can be tried, and the settings of a port have to be read back.", "anchors": ["Diminuto/bin/serialtool.c:145-384", "Diminuto/src/diminuto_serial.c:22-277"]}
{"id": "C148", "title": "serialtool implements and tests loop back", "statement": "serialtool -F sends back each character as soon as it has been received, and nothing else; serialtool -B sends all characters, or the printable ones, in turn, each after the one before has come back, and ends if another one comes, or none in time; the number of characters is reported at each multiple of -M, on SIGHUP and at the end; on a line that gives back what it is given -B goes on for ever; the exit code tells whether the test has failed.", "quantifier": "every sequence of characters received, every moment of a signal, every failure, every number of turns", "why_tests_cant": "The loops have no end, and the moments of signals cannot be chosen.", "anchors": ["Diminuto/bin/serialtool.c:392-525", "Diminuto/src/diminuto_serial.c:279-301"]}
{"id": "C149", "title": "serialtool copies between the terminal and the device", "statement": "In its interactive mode serialtool writes whatever it reads from the device to the standard output and whatever it reads from the standard input to the device, all of it, before it does anything else, waits for the carrier with -c, goes on after the end of the standard input with -P without reading it again, and ends with zero on a signal or at the end of the device or of the standard input.", "quantifier": "every sequence of data from both ends, every behaviour of the system calls, every moment of a signal, every number of turns", "why_tests_cant": "Data from both ends may come in any order and in any portions, with failures and signals in between.", "anchors": ["Diminuto/bin/serialtool.c:527-624", "Diminuto/src/diminuto_mux.c:128-171"]}
{"id": "C150", "title": "An answer to a datagram goes to its sender", "statement": "diminuto_ipc4_datagram_send_generic and diminuto_ipc6_datagram_send_generic send what they are given to the address and the port that they are given, with one system call whose result is returned, and without a destination if the port is zero; the functions that receive store the address and the port of the sender wherever they are asked for, and the functions for the near end and the far end those of the socket; what any host, of either byte order, sends to an address and a port that have been stored arrives where they came from; if nothing can be told the variables are left as they were; a failure is logged unless it is an interrupt or that the call would wait.", "quantifier": "every address, port, datagram, byte order, previous value of the variables, and every behaviour of the system calls", "why_tests_cant": "A test can use only the addresses of the host that it runs on, and only the byte order of that host.", "anchors": ["Diminuto/src/diminuto_ipc4.c:192-220", "Diminuto/src/diminuto_ipc4.c:408-461", "Diminuto/src/diminuto_ipc6.c:323-351", "Diminuto/src/diminuto_ipc6.c:559-613"]}
{"id": "C151", "title": "An answer to a local datagram goes to its sender", "statement": "diminuto_ipcl_datagram_send_generic sends a datagram to the socket of the path that it is given; diminuto_ipcl_datagram_receive_generic stores the path of the sender, and diminuto_ipcl_nearend and diminuto_ipcl_farend that of the socket, so that what is sent to the stored path arrives at the socket that the datagram came from; nothing is read or written beyond a socket address or the variable.", "quantifier": "every path, datagram, size and content of the variable, and every behaviour of the system calls", "why_tests_cant": "Paths at the limits of a socket address and senders without a name are not tried, and memory beyond an address cannot be observed by a test.", "anchors": ["Diminuto/src/diminuto_ipcl.c:74-89", "Diminuto/src/diminuto_ipcl.c:137-165", "Diminuto/src/diminuto_ipcl.c:343-395"]}
{"id": "C152", "title": "The address of a host is the first of its addresses", "statement": "diminuto_ipc4_addresses returns all IPv4 addresses of a host, or the one in dot notation, in host byte order and in order, followed by zero, or NULL if there is none; diminuto_ipc6_addresses looks a name up for IPv6, then for IPv4, then for any family, until it is found, and frees each list that it gets, once; diminuto_ipc4_address and diminuto_ipc6_address return the first of these addresses, or zero if there is none.", "quantifier": "every result of inet_aton, gethostbyname and getaddrinfo, every number of addresses, either byte order", "why_tests_cant": "The results of the name service depend on the network and the configuration of the host, and lists that are not freed are not observed.", "anchors": ["Diminuto/src/diminuto_ipc4.c:88-141", "Diminuto/src/diminuto_ipc6.c:153-182", "Diminuto/src/diminuto_ipc6.c:219-260"]}
{"id": "C153", "title": "The buffered shaper passes its input on", "statement": "The tool that shapes traffic with the functions of the C library, by bytes, by blocks or by lines, writes what it reads, nothing else and in order; it counts the bytes, the blocks and the largest block, and computes the checksum of what it has written; it exits with zero exactly when all of its input has arrived at its output, with three if a reading has failed, and with four if a writing has.", "quantifier": "every input, mode, size of the buffer, clock, rates and failures of the reading and of the writing", "why_tests_cant": "Zero bytes in lines, the limits of the sizes of buffers, and failures at the end of the output are not part of the tests, which compare checksums of printable data.", "anchors": ["Diminuto/bin/shaperbuffered.c:117-200", "Diminuto/bin/shaperbuffered.c:202-527"]}
{"id": "C154", "title": "The buffered shaper keeps to its rates", "statement": "With a sustained rate the tool releases in any interval at most the rate times its length, the maximum burst, what the jitter tolerance allows and one block; with a peak rate, in the same way without the burst; without rates it waits for nothing.", "quantifier": "every interval of every run, in every mode, every clock that does not go back, every input", "why_tests_cant": "A test can sample a few intervals of a few runs.", "anchors": ["Diminuto/bin/shaperbuffered.c:117-200", "Diminuto/bin/shaperbuffered.c:396-470"]}
{"id": "C155", "title": "Messages are logged at their level", "statement": "The tool log logs each of its arguments that is not empty, in order, once and with a newline, at the level that has been asked for last or as a notice, exactly if the log mask wants that level or if it is told to ignore the mask; it reads the standard input only if there are no messages among its arguments and unless told otherwise; it then logs each line as one message, reads to the end and succeeds exactly if the reading does.", "quantifier": "every mask, list of options and of arguments, input, and size of the buffer", "why_tests_cant": "There is no test of the tool, and the input it reads when the mask is not the default is not noticed interactively.", "anchors": ["Diminuto/bin/log.c:40-216"]}
{"id": "C156", "title": "The meter passes its input on", "statement": "The tool meter writes what it reads, nothing else and in order; it exits with zero only if it has written all of its input or has been told by a signal to end, and with three if a reading or a writing has failed.", "quantifier": "every input, size of the blocks, sequence of partial reads and writes, failures and signals", "why_tests_cant": "Partial writes followed by failures cannot be provoked in a pipeline.", "anchors": ["Diminuto/bin/meter.c:142-195", "Diminuto/bin/meter.c:197-210"]}
{"id": "C157", "title": "The meter reports what it has passed on", "statement": "The last report of the tool meter says how many bytes it has written, the time from its beginning to its end, the rate sustained in it, the number and the largest of the blocks, and the peak rate between blocks; reports before are the same for the blocks until then, and there is one for every block with the verbose option.", "quantifier": "every input, clock that does not go back, sequence of partial reads and writes, failures and signals", "why_tests_cant": "The reports are on the standard error and depend on the time, and are not checked by a test.", "anchors": ["Diminuto/bin/meter.c:30-53", "Diminuto/bin/meter.c:133-210", "Diminuto/src/diminuto_meter.c:29-97"]}
{"id": "C158", "title": "A signal ends the meter", "statement": "A signal that interrupts, terminates or breaks the pipe ends the tool meter when the block in hand has been written, and what has been read has been written then.", "quantifier": "every input, behaviour of the reader, and time of every signal", "why_tests_cant": "When a signal arrives with respect to the system calls cannot be chosen by a test.", "anchors": ["Diminuto/bin/meter.c:142-195"]}
{"id": "C159", "title": "Local time is universal time and an offset", "statement": "The local date and time of a time are the universal date and time of the time by the time zone and the daylight saving time later that the library returns for it; and the epoch of the local date and time with that time zone and that daylight saving time is the time.", "quantifier": "every time, zone, and library that knows the calendar", "why_tests_cant": "The tests run in the zone of the host that they run on, or in a few, and at the time at which they run.", "anchors": ["Diminuto/src/diminuto_time.c:81-148", "Diminuto/src/diminuto_time.c:358-378", "Diminuto/src/diminuto_time.c:150-213"]}
{"id": "C160", "title": "The tools zulu and juliet print the time", "statement": "The tool zulu prints the universal date and time of the clock, and the tool juliet the local one with its offset as a sign, hours and minutes; if the clock cannot be read they exit with another status than zero.", "quantifier": "every reading of the clock, zone and time of the year", "why_tests_cant": "Zones to the west, and offsets of half an hour, are only found by tests in them, and clocks do not fail.", "anchors": ["Diminuto/bin/zulu.c:29-51", "Diminuto/bin/juliet.c:30-61"]}
{"id": "C161", "title": "The tools epochtime and elapsedtime print whole units", "statement": "The tools epochtime and elapsedtime print the number of whole units since the beginning of the clock, of which there are as many in a second as the argument says, or seconds without; an argument that is no positive number is refused; and if the clock cannot be read they exit with another status than zero.", "quantifier": "every number of units in a second, and reading of the clock", "why_tests_cant": "There is no test of the tools, and a number that is wrong by a few percent is not noticed.", "anchors": ["Diminuto/bin/epochtime.c:36-63", "Diminuto/bin/elapsedtime.c:36-64", "Diminuto/inc/com/diag/diminuto/diminuto_frequency.h:diminuto_frequency_ticks2units"]}
{"id": "C162", "title": "A running modulator assumes a new duty cycle", "statement": "When the function that changes the duty cycle of a modulator that runs returns, the callback has taken over the duty cycle that had been asked for last, and it is in effect; the function returns within 256 firings of the timer; and the new duty cycle is assumed when the current cycle of on and off is complete.", "quantifier": "every interleaving of any number of threads that change the duty cycle, start and stop, of the firings, and of wake-ups without a signal; every duty cycle", "why_tests_cant": "The unit test has one thread that changes the duty cycle, and looks at a lamp.", "anchors": ["Diminuto/src/diminuto_modulator.c:91-161", "Diminuto/src/diminuto_modulator.c:163-248", "Diminuto/src/diminuto_modulator.c:308-327"]}
{"id": "C163", "title": "The tool for the Internet opens what its arguments ask for", "statement": "The family, protocol, near and far address, near and far port, interface and block size that internettool works with are those of the last of the options that concern each (an endpoint giving those that it has); it provides if and only if the far end has no port, and otherwise consumes from it; it never uses memory that it has freed; and what cannot be resolved is refused.", "quantifier": "every sequence of options with every text; every resolver (of endpoints, addresses, services and interfaces)", "why_tests_cant": "The functional tests call the tool with a few fixed addresses and ports.", "anchors": ["Diminuto/bin/internettool.c:180-700", "Diminuto/bin/internettool.c:551", "Diminuto/bin/internettool.c:567", "Diminuto/bin/internettool.c:700-1215"]}
{"id": "C164", "title": "The tool for the Internet returns to everybody what comes from them", "statement": "As a provider internettool returns every byte that comes from a connection to that connection, in order and unchanged, and closes it when its input has ended and not before; every datagram that is not empty is returned to the address, port and interface that it came from; and no client can end the provider or keep it from answering the others.", "quantifier": "every number of clients, every interleaving of accepts and of what is ready, every way in which the kernel cuts what is read and written into pieces, every size of the block below 2^63", "why_tests_cant": "The functional test has one client at a time, on the same host, that behaves well.", "anchors": ["Diminuto/bin/internettool.c:807-975"]}
{"id": "C165", "title": "The tool for the Internet sends its input and writes what comes back", "statement": "As a consumer internettool sends all of its standard input to the server, in order, one datagram for each block if so, and writes what comes from the server, in order, to its standard output; and it ends if and only if its input has ended and everything that has been sent has come back.", "quantifier": "every far end, every interleaving of what is ready, every way in which the kernel cuts what is read and written into pieces, every size of the block below 2^63", "why_tests_cant": "The functional test has a server that echoes, without loss, on the same host.", "anchors": ["Diminuto/bin/internettool.c:977-1143", "Diminuto/bin/internettool.c:1215"]}
{"id": "C166", "title": "The tool for the memory mapped driver does to a register what its options say", "statement": "mmdrivertool does its options one after the other until a test says to stop or until one fails; a read prints the number that the word at the offset is, a write, set or clear changes exactly the bits of that word that it is to change, the mask being applied before a set, and nothing else in the memory of any device; a test looks at the result of the last operation; and the status is one if and only if an option failed, in which case that option has changed nothing.", "quantifier": "every sequence of options and arguments, all devices, all contents of their memory, both orders of bytes, whatever is in uninitialised variables", "why_tests_cant": "The functional test has one device with one driver, an order of bytes, and about a dozen sequences; it needs the kernel module.", "anchors": ["Diminuto/bin/mmdrivertool.c:41-65", "Diminuto/bin/mmdrivertool.c:89-280", "Diminuto/src/diminuto_fd.c:48-59"]}
{"id": "C167", "title": "A record is one datagram, whatever its segments", "statement": "A record that is sent as a datagram is sent with one call, with the bytes of all of its segments in order, to the address and the port that are given; a datagram that is received into a record is put into its segments in order, and changes nothing else in that record or in any other; the address and the port that are stored are those of the sender, so that what is sent there goes to the socket it came from; and if nothing is received, nothing is changed.", "quantifier": "every history of calls on any number of pools and records, every datagram and destination of IPv4 and IPv6, both orders of bytes, all results of the system calls", "why_tests_cant": "The unit test sends a handful of records of fixed segments to the same host, and never fails to receive.", "anchors": ["Diminuto/src/diminuto_scattergather.c:267-385", "Diminuto/src/diminuto_ipc.c:363-403"]}
{"id": "C168", "title": "The singleton timer sends the alarm when the latest call says, and a call returns what was left", "statement": "After diminuto_timer_setitimer is called for a number of ticks greater than zero, and until it is called again, the process is sent SIGALRM exactly that many ticks later, and if periodic exactly after every multiple of them; a call for zero ticks cancels the timer, so that the signal is not sent; a call returns how many ticks were left of the timer before it, zero if none was running, and less than zero only if it has failed, in which case it changes nothing.", "quantifier": "every sequence of calls at every time, with any ticks of 64 bits and either periodicity; the timer can or cannot be made in each of the calls", "why_tests_cant": "The unit tests call the function for a few fixed durations, start and cancel in pairs, with one periodicity for each program, and cannot see signals that are not sent.", "anchors": ["Diminuto/src/diminuto_timer.c:251-357", "Diminuto/inc/com/diag/diminuto/diminuto_timer.h:216-271"]}
{"id": "C169", "title": "Timers and threads get all of their POSIX objects or say so, and give them all back", "statement": "Initializing a timer succeeds exactly if either a function or a signal is given and each call that it makes succeeds; then the timer is idle, has all of its POSIX objects, and the POSIX timer is made for the given function or signal; for a function, and for a thread, the given scheduler is set with, of the priorities it has, the nearest to the given one; if initializing fails nothing is left behind; finalizing is defined, destroys all that can be destroyed, and succeeds exactly if nothing is left; a thread is only finalized if it is not active.", "quantifier": "all results of all calls of POSIX, every function, signal, scheduler and priority, every state of a thread", "why_tests_cant": "The unit tests cannot make the calls of POSIX fail, and cannot see what is left behind.", "anchors": ["Diminuto/src/diminuto_timer.c:113-249", "Diminuto/src/diminuto_timer.h:31-43", "Diminuto/src/diminuto_thread.c:173-281", "Diminuto/src/diminuto_condition.c:28-68", "Diminuto/src/diminuto_mutex.c:26-65"]}
{"id": "C170", "title": "Copies of strings in buffers are exact, the report on a pool counts its bytes, and pools can be exchanged", "statement": "diminuto_buffer_strdup and diminuto_buffer_strndup return null exactly if an allocation of as many bytes does, and otherwise a buffer that nobody holds, large enough, which contains the string, or its first n characters, and a nul; they change no other buffer, read nothing beyond the nul or the n characters, and are undefined if these are not there. diminuto_buffer_log returns the number of bytes of the free buffers with their headers. diminuto_buffer_set exchanges the pool, after which each pool is as if it were the only one.", "quantifier": "every history of calls, every string and n, every valid pool of sizes, everything the heap may do", "why_tests_cant": "The unit tests copy a few strings from an empty or filled pool and do not exchange pools while buffers are held, nor let a string end where the memory ends.", "anchors": ["Diminuto/src/diminuto_buffer.c:170-265", "Diminuto/src/diminuto_bufferpool.c:108-139", "Diminuto/inc/com/diag/diminuto/diminuto_buffer.h:110-131", "Diminuto/inc/com/diag/diminuto/diminuto_buffer.h:190-208"]}
{"id": "C171", "title": "The tool that passes datagrams over a serial line prepares the line and the socket as its options say", "statement": "Each setting of conestoga is what the last option says that says something about it, or its default. -? ends the program with one before anything is opened; an option that is refused ends it with two, before anything is opened; otherwise it exits with the status of the first stage that fails: handlers, line, endpoint, socket, registration, buffers. When it comes to its work loop, the device has been opened and, if it is a terminal, set and made raw with the rate, bits, parity and flow control asked for; the socket has the family of the endpoint and, for a server only, its port; and a client sends to an address and port that are not zero.", "quantifier": "every list of options with every text as their arguments, every outcome of the calls to the system and of looking up endpoints", "why_tests_cant": "The functional tests run the tool with a few fixed combinations of options and with calls that succeed; they do not change the order of the options, pass numbers beyond the widths of the variables, or let calls fail.", "anchors": ["Diminuto/bin/conestoga.c:44-432"]}
{"id": "C172", "title": "The tool that dumps files shows each of them as one dump, copies them exactly, and hides no error", "statement": "For streams without errors, bin/dump prints for each name, or for the standard input, the lines that one dump of the whole content from address zero has, although it reads sixteen bytes at a time; with -t it copies the contents, concatenated, to the standard output, and prints the dump on the standard error. It exits with two at the first name that cannot be opened, after the dumps of those before it, with three after a stream with a read error, with one for the menu, and with zero only if nothing of this happened. For any stream, with errors between any bytes, what is read is shown at consecutive addresses and copied.", "quantifier": "every list of names, every content, every position of read errors and of ends of files", "why_tests_cant": "The tests dump one short file; they do not read past errors or several files, and do not compare with a dump at once.", "anchors": ["Diminuto/bin/dump.c:36-119", "Diminuto/inc/com/diag/diminuto/diminuto_dump.h:85-96"]}
{"id": "C173", "title": "Escape sequences can be collapsed in place, and the tool that does so writes what its arguments mean", "statement": "diminuto_escape_collapse with the same source and target stores the same bytes and returns the same number as with different ones, never reads a byte that it has overwritten, and leaves the bytes after the result as they were. bin/collapse writes what its arguments denote, one after the other, until a write is short, in which case it exits with one.", "quantifier": "every terminated string, every size; every list of arguments, every outcome of the writes", "why_tests_cant": "The unit tests use separate buffers; that a byte is never overwritten before it is read depends on all sequences of escapes before it.", "anchors": ["Diminuto/src/diminuto_escape.c:17-144", "Diminuto/bin/collapse.c:33-73"]}
{"id": "C174", "title": "The tool that renames files never replaces or loses one", "statement": "bin/renametool renames the first name to the second, if the first exists and the second does not, or with -x exchanges them, if both exist; no other name changes. In all other cases, and with all other arguments, it changes nothing and exits with one or two. No file loses its last name.", "quantifier": "every list of arguments, every file system, every failure of the system call", "why_tests_cant": "There are no tests of this tool; its arguments are counted differently with and without -x.", "anchors": ["Diminuto/bin/renametool.c:30-76"]}
{"id": "C175", "title": "What the tool that prints in hexadecimal prints is read back as its input, also by the tool that collapses", "statement": "Unless an option ends it, bin/phex exits with zero, prints only printable characters and newlines, and what it prints is read back, with newlines ignored, as its input, without the newlines of the input if -n keeps them as they are. With -t the input is copied exactly to the standard output and the rest is on the standard error. With -l 0 and -x the text is a string with escapes that means exactly the input, so that bin/collapse writes the input again.", "quantifier": "every list of options, every input", "why_tests_cant": "There is no test of the two tools together, and the ambiguity of a nul before a digit depends on neighbouring bytes.", "anchors": ["Diminuto/bin/phex.c:36-138", "Diminuto/bin/collapse.c:33-73", "Diminuto/src/diminuto_phex.c:19-85"]}
{"id": "C176", "title": "The tool that sleeps lasts at least as long as it is asked to", "statement": "bin/elapsedsleep refuses its arguments exactly if they are not numbers, or the delay is negative, or the units per second are not positive, and then does nothing. If the units divide 10^9, and the delay is less than 2^63 nanoseconds, it sleeps at least as long as asked, unless a signal ends the sleep. With any other units it sleeps at least half as long as asked.", "quantifier": "every list of arguments, every system whose delay lasts at least as long as asked unless it is interrupted", "why_tests_cant": "The tool is not tested with units that do not divide 10^9 and long delays cannot be waited for.", "anchors": ["Diminuto/bin/elapsedsleep.c:36-82"]}
{"id": "C177", "title": "The tool for a pin reads or sets it and gives it back", "statement": "bin/gpiotool does nothing and exits with one unless it has one or two numbers as arguments. With a pin that is not in use, and files that appear in time, it prints the value of the pin or sets it, exits with zero, and the pin is not exported and no stream is open at the end. Whatever the system does, it prints one digit if it exits with zero and was asked for the value, and otherwise nothing.", "quantifier": "every list of arguments, every delay of the files, every behaviour of the system", "why_tests_cant": "There is no test of the tool, which needs hardware.", "anchors": ["Diminuto/bin/gpiotool.c:38-94"]}
{"id": "C178", "title": "The sizes of pages and of lines of the cache are those of the first source that has one", "statement": "diminuto_memory_pagesize and diminuto_memory_linesize always return a size greater than zero, which is that of the first source, in the order explicit, sysconf, getpagesize or the two files, implicit, that has one, and the method says which of the sources it is; no stream is left open.", "quantifier": "every answer of the system, every content of the files", "why_tests_cant": "On one machine always the same source answers; the others are never reached.", "anchors": ["Diminuto/src/diminuto_memory.c:27-130", "Diminuto/inc/com/diag/diminuto/diminuto_memory.h:30-58"]}
{"id": "C179", "title": "After an abort the next frame is received", "statement": "diminuto_framer_abort returns two if the two octets have been written and flushed, and EOF otherwise. Whatever has been sent before an abort, be it part of a frame, ending anywhere, or noise, the frame after the abort is received; before it only what is received without the abort, and after it what is received as if nothing had been before.", "quantifier": "every sequence of octets before and after, every valid frame, every size of the buffer", "why_tests_cant": "The prefixes of frames and the states in which the abort arrives are many; without an abort the next frame is lost only after an escape.", "anchors": ["Diminuto/src/diminuto_framer.c:742-770", "Diminuto/src/diminuto_framer.c:774-843", "Diminuto/src/diminuto_framer.c:977-994"]}
{"id": "C180", "title": "The last registration of a signal decides whether it is blocked while the multiplexer waits", "statement": "diminuto_mux_register_signal blocks exactly the signal that it is given and returns its number, and diminuto_mux_unregister_signal unblocks exactly it and returns zero, if the signal exists, is not kept by the C library, and is not already so; otherwise neither changes anything. After any calls a signal is blocked as the last call of it says, or as it was at first. The result of registering is not negative exactly if the signal has been newly blocked.", "quantifier": "every mask, every signal number, every sequence of calls", "why_tests_cant": "The signals that the library keeps cannot be put into a set, which tests with ordinary signals never meet.", "anchors": ["Diminuto/src/diminuto_mux.c:193-229"]}
{"id": "C181", "title": "What a framer says about itself and about a restart of either end", "statement": "A framer is terminal exactly if no octet takes it out of its state; an error is terminal and has no frame. A framer that has received a valid frame offers exactly its payload. As long as every frame arrives it says that the far end rolled over exactly at frames whose number is a multiple of 65536 and never that an end was restarted. If the far end was restarted after n frames it says so exactly if n is not a multiple of 65536; if the near end was restarted it says so exactly if the number of the next frame is not such a multiple.", "quantifier": "every number of frames, every payload that fits, every state and octet", "why_tests_cant": "Rolling over takes 65536 frames, and the multiples at which a restart cannot be seen are one in 65536.", "anchors": ["Diminuto/inc/com/diag/diminuto/diminuto_framer.h:300-401", "Diminuto/src/diminuto_framer.c:74-684"]}
{"id": "C182", "title": "What throttles and shapers say about themselves", "statement": "After any calls in any order a throttle says that it is alarmed exactly if after some commit since the last reset it said that it was full and after none since that it was empty; full after a request and a commit is that the request asked for a delay. It says that it has just become empty, full, alarmed or cleared exactly if by the last commit it did, and a request changes nothing of what it says. After a reset it is as new. What a shaper expects is exactly the least time after the commit at which its buckets are empty. Of a shaper the same about transitions: it says that it has just become empty, full, alarmed or cleared exactly if it has.", "quantifier": "every throttle and shaper, every sequence of resets, requests and commits, every time", "why_tests_cant": "The sequences of calls are unbounded, and the two buckets of a shaper seldom change at the same time.", "anchors": ["Diminuto/inc/com/diag/diminuto/diminuto_throttle.h:248-325", "Diminuto/src/diminuto_throttle.c:51-114", "Diminuto/src/diminuto_shaper.c:52-186"]}
{"id": "C183", "title": "Mailboxes made of lists", "statement": "With any number of mailboxes and messages, diminuto_list_send moves a message from wherever it is to the end of the mailbox, diminuto_list_express to its beginning, diminuto_list_receive takes the first, or nothing if there is none, and diminuto_list_cancel takes a message out of its mailbox; no other mailbox changes. Afterwards the nodes that follow the mailbox are its messages in their order, and diminuto_list_ismember, diminuto_list_aresiblings, diminuto_list_isroot and diminuto_list_isempty say so.", "quantifier": "every number of nodes, every choice of mailboxes among them, every sequence of calls", "why_tests_cant": "The interleavings of calls on several mailboxes are unbounded; a message that is sent again to where it already is last is not what tests do.", "anchors": ["Diminuto/inc/com/diag/diminuto/diminuto_list.h:379-412", "Diminuto/inc/com/diag/diminuto/diminuto_list.h:540-572", "Diminuto/src/diminuto_list.c:51-78"]}
{"id": "C184", "title": "The score of the cycles of a modulator", "statement": "The score of a pair of on and off counts is the percentage of the greater count in the cycle of 255, with the fraction dropped, in spite of being computed in floating point; it is from 0 to 100, 0 if the output is constant, the same if the counts are exchanged, not worse for smaller counts nor after common factors have been removed, and better the closer the counts are; removing the factors says that something was changed exactly if both counts were.", "quantifier": "For all pairs of counts of eight bits, with the arithmetic of binary64.", "why_tests_cant": "The test computes the score of 256 pairs and compares it with nothing but the range.", "anchors": ["Diminuto/src/diminuto_modulator.c:25-49", "Diminuto/src/diminuto_modulator.c:51-77", "Diminuto/inc/com/diag/diminuto/diminuto_modulator.h:179-191"]}
{"id": "C185", "title": "The listing of the tool that walks the file system", "statement": "The tool ends whatever the file system does; it walks every argument in the order given, also after a walk has failed, and the current directory if there is none; it returns the code of the first walk that failed without its sign, from 1 to 9, and zero exactly if none failed. If the file system does not change, what is printed can be read back: reading the lines from top to bottom, the indentation says in which directory an object is and a slash at the end that it is a directory itself, and this gives exactly the paths of the objects that can be seen, each once.", "quantifier": "For all file systems, also those that change during the walk, and all arguments; for reading back all file systems that do not change and have no errors but the tolerated ones.", "why_tests_cant": "The tool is run by hand on a few directories and nobody reads the listing back; names with newlines do not occur.", "anchors": ["Diminuto/fun/walker.c:43-93", "Diminuto/fun/walker.c:96-130", "Diminuto/src/diminuto_fs.c:73-266"]}
{"id": "C186", "title": "The brightness computed from the channels of a light sensor", "statement": "For all values of the two channels the formula of the data sheet that belongs to their ratio is used, and its value is returned up to rounding; the brightness is never negative, is zero exactly if the first channel is zero or the ratio exceeds 1.3, never exceeds the value for the greatest first channel and no infrared, which is 1992.264 Lux, and does not increase if the infrared does.", "quantifier": "For all values of the channels of 16 bits, all roundings to 53 bits that keep the order, and all monotone powers below the identity.", "why_tests_cant": "There are 2^32 pairs of values; the limits are decimal fractions that have no exact representation, so that a comparison at a limit could go either way.", "anchors": ["Diminuto/fun/avago/apds9301.h:236-287"]}
{"id": "C187", "title": "Reading a light sensor, and the tool that computes the brightness", "statement": "Sensing reads the four data registers in the required order, the lower byte of a channel before the higher one, and stores the brightness of the channels made of these bytes, or returns what the first read that failed returned and leaves the buffer unchanged. The tool prints for two numbers of 16 bits their brightness, with or without the option for debugging, complains about everything else, and finds as the extremes of all pairs zero, for no light, and the value for the greatest total without infrared.", "quantifier": "For all behaviours of the I2C bus, all arguments and all 2^32 pairs of values.", "why_tests_cant": "The loops over all pairs take minutes and are run once, by hand, with the result pasted into a comment; a bus that fails at one of the four reads is not simulated.", "anchors": ["Diminuto/fun/avago/apds9301.h:303-343", "Diminuto/fun/luxcompute.c:45-121", "Diminuto/inc/com/diag/diminuto/diminuto_i2c.h:148-151"]}
{"id": "C188", "title": "The driver of an analog to digital converter", "statement": "Whatever the configuration and the raw value, the conversion succeeds and gives the raw value times the full scale of the gain divided by 32767, within a relative error of 2^-50; with the same gain a greater raw value is a greater voltage, and none is beyond the full scale. The first byte of a register is the higher one on every host. The configuration sets the three registers as given and nothing else, or returns what the first message that failed returned and sends no other; what is sensed afterwards is the voltage for the conversion register at the configured gain. If sensing fails the buffer is unchanged, and it fails if and only if the bus does.", "quantifier": "For all 2^32 pairs of configuration and raw value, all register contents, both byte orders and all behaviours of the I2C bus.", "why_tests_cant": "The unit test needs the device, and sees the voltages that happen to be applied to it, with one gain and on one host; failures and short transfers on the bus do not occur.", "anchors": ["Diminuto/fun/ti/ads1115.h:148-151", "Diminuto/fun/ti/ads1115.h:202-323", "Diminuto/inc/com/diag/diminuto/diminuto_i2c.h:161-164"]}
{"id": "C189", "title": "The tool that regulates a voltage", "statement": "Whatever is sensed, and whatever target and duty cycle it was started with, no conversion and no computation of the tool overflows; every duty cycle passed to the modulator is from 0 to 255; the controller is called for every eighth sample; its first result is passed to the modulator, and after that every change and nothing else; and the controller is always given the duty cycle that was last passed to the modulator. The input of the controller is the voltage in millivolts, rounded. The arguments are a target of at most 6144 and a duty cycle of at most 255, neither negative, and everything else is complained about.", "quantifier": "For all sequences of raw values and configurations of the converter, all targets and duty cycles, and all arguments.", "why_tests_cant": "The tool needs a test fixture with a converter and a filtered output; it is run by hand with the default target, and the displayed actual value is the one with the error, so that the regulation seems to be perfect.", "anchors": ["Diminuto/fun/adccontroller.c:95-125", "Diminuto/fun/adccontroller.c:178-219", "Diminuto/fun/adccontroller.c:326-392"]}
{"id": "C190", "title": "The tool that regulates a brightness", "statement": "Whatever is sensed, and whatever target and duty cycle it was started with, the assertion on the brightness holds and no conversion and no computation of the tool overflows; every duty cycle passed to the modulator is from 0 to 255; the controller is called for every fourth sample; its first result is passed to the modulator, and after that every change and nothing else; the duty cycle is that of the controller with feedback. The input of the controller is the brightness in tenths of a lux, rounded. The arguments are a target of at most 20000 and a duty cycle of at most 255, neither negative, and everything else is complained about.", "quantifier": "For all sequences of values of the two channels of the sensor, all targets and duty cycles, and all arguments.", "why_tests_cant": "The tool needs a test fixture with a sensor and a light; it is run by hand with the default target, and the displayed actual value is the one with the error.", "anchors": ["Diminuto/fun/luxcontroller.c:100-130", "Diminuto/fun/luxcontroller.c:183-224", "Diminuto/fun/luxcontroller.c:336-403"]}
{"id": "C191", "title": "The tool that measures the voltage for every duty cycle", "statement": "However often the modulator has not yet taken over a duty cycle, the tool prints five lines for each duty cycle, from 255 down to 0, one for every fourth conversion that is not skipped; passes to the modulator these duty cycles in the same order, each from 0 to 255; and ends with the last line and not before, when every duty cycle has been measured five times.", "quantifier": "For all sequences of conversions, with the modulator behind at any of them.", "why_tests_cant": "One run takes more than ten minutes on a test fixture, and nobody counts its 1280 lines; how often the modulator is behind depends on the timing.", "anchors": ["Diminuto/fun/adcrheostat.c:52-80", "Diminuto/fun/adcrheostat.c:158-245"]}
