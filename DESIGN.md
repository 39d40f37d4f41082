# Design: machine-checked properties of com-diag-diminuto

The subject is the C library under `/repo/Diminuto` at its pinned commit. The
code was read as text; it was not built or run. All theorems are about the Lean
model in `lean/Verif`, and the tie to the code is the citation (file and lines)
carried by every model definition.

## Trusted base

* The Lean 4.33.0 kernel and the statements of the theorems listed in
  `MANIFEST.json`.
* Axioms: at most `propext`, `Classical.choice` and `Quot.sound`. No axioms are
  added, no `sorry`, no `native_decide`, no `bv_decide`.
* That the model definitions say what the cited C lines do. C undefined
  behaviour is modelled as a distinct outcome where the property concerns it;
  otherwise the precondition excluding it is an explicit hypothesis.
* The ABI assumed is LP64 little-endian Linux (`int` 32 bits, `long`, `size_t`
  and pointers 64 bits), as the library itself assumes.
* External calls (file system, `pselect`, `pthread_*`, clocks) are parameters or
  nondeterministic steps whose assumed behaviour is written down with each model.

## Layout

* `Verif/<Area>.lean`: the model, the code as total functions.
* `Verif/<Area>Lemmas.lean`: helper lemmas.
* `Verif/<Area>Props.lean`: specification and property theorems with
  non-vacuity examples.

## Plan per property

| id | modelled | how proved |
|----|----------|------------|
| C01, C02 | `diminuto_fletcher_16` on `Nat` bytes with carried A/B | induction on the message; closed form as weighted sums mod 255 |
| C03, C04, C05 | `diminuto_kermit_16` on `BitVec 16` with its literal table; `crc2chars`/`chars2crc` | table = bitwise shift register by a finite check of the whole table; burst detection by injectivity/linearity of the register |
| C06 | the encode and decode tables | whole finite table |
| C07-C13, C57 | the framer receive machine, emit, writer and reader | simulation of the receiver on emitted frames; invariants over all token sequences |
| C14, C15, C16 | escape collapse/expand and bounded string copy on byte lists with a size | induction on the source |
| C17, C18 | ring counters with 32-bit arithmetic | refinement to a FIFO of slot numbers; witnesses for wrap-around |
| C19 | debouncer step | invariant over sample history |
| C20-C23 | heap of nodes (`next`, `prev`, `root` maps) | ring invariant preserved by each pointer operation; refinement to sequences |
| C24-C27 | heap/zipper model of the red-black tree with parent pointers | refinement to an inductive tree; red-black invariant through the fixups |
| C28-C30 | throttle/shaper state in ticks | induction over commit times; equivalence with leaky bucket |
| C31 | Fibonacci generator | invariant over calls; witness for the documented bound not being reached |
| C32 | modulator | ratio lemma for factor; cycle simulation |
| C33, C55 | controller | clamp lemmas; overflow modelled |
| C34-C37 | reader-writer monitor as a transition system over critical sections | inductive invariant over all schedules |
| C38, C39 | mux sets | scan lemma, invariant over registration history |
| C40, C41 | buffer pool, pool, well free lists | ownership invariant over histories |
| C42, C43 | file-system namespace transition systems with crash at any step | inductive invariant |
| C44, C45 | tick arithmetic on `Int` with 64-bit range checks | division lemmas |
| C46 | read/write loops against an arbitrary kernel schedule | induction on schedule |
| C47 | endpoint parser automaton | totality by structural recursion; language characterisation; witnesses |
| C48, C49 | command line, canonicalize | list induction |
| C50-C52 | signal counter, logical clock, timer transition systems | inductive invariants; witnesses for races |
| C53, C54 | memory arithmetic; dump layout | bit/arith lemmas |

## Disagreements and findings

One entry per area, in the order in which the areas were modelled.  "Finding"
marks behaviour of the code that contradicts its documentation or a property a
user would expect; each is backed by a theorem ending in `_counterexample`.

### Fletcher, Kermit, Hamming (C01-C06)

Modelled: `diminuto_fletcher_16`, `diminuto_kermit_16` with its literal table,
`crc2chars`, `chars2crc`, both Hamming tables. Not modelled: the pointer and
length arguments (lists stand for buffers). No disagreement found.

### Ring (C17, C18)

Modelled: all of `diminuto_ring.c` except initialisation of memory. Counters are
`Nat` with the `unsigned int`/`int` wrap written out.

* Finding: a producer request close to 2^32 makes `used + request` wrap, so the
  request is granted and the counters are corrupted
  (`ring_producer_oversized_counterexample`).
* Finding: a ring of capacity zero divides by zero on the first request of zero
  slots (`ring_zero_capacity_undefined`).

### Cue (C19)

Modelled: the whole debouncer. No disagreement found.

### Fibonacci (C31)

* Finding: the generator compares with `<`, so a limit that is itself a Fibonacci
  number is never returned although the documentation says the sequence is
  limited *to* the limit (`fibonacci_documented_counterexample`).
* Finding: lowering the limit below the current value freezes the generator
  above the new limit (`fibonacci_lowered_limit_counterexample`).

### Modulator (C32)

* Finding: each half of the cycle lasts one firing more than its count, so that
  the duty is `(on+1)/(on+off+2)` and never exact for 0 < duty < 255.
* Finding: the factoring does not always reach lowest terms.

### Controller (C33, C55)

Modelled: `diminuto_controller_init`, `apply_gain`, `diminuto_controller`; not
modelled: logging and `diminuto_controller_log`.

* Finding: the parameters set by `diminuto_controller_init` permit signed overflow
  (undefined behaviour) after 32768 saturated calls.
* Finding: `output += delta` converts to 16 bits before the output is clamped, so
  that a positive correction at full scale yields the most negative output.


### Escape, string copy, command line (C14-C16, C48, C56)

Modelled: `diminuto_escape_collapse`, `_expand`, `_trim`, `diminuto_string_copy`,
`diminuto_command_length`, `diminuto_command_line`. Not modelled:
`diminuto_escape_printable` (locale dependent) and the `strdup` proxies.

* Finding: a NUL followed by an octal digit expands to text that collapses to a
  different byte (`escape_round_trip_nul_counterexample`).
* Finding: special sets containing `n`, `t`, `x`, octal digits and so on expand to
  C escapes with another meaning (`escape_round_trip_special_counterexample`).
* Finding: trim looks at one backslash only before the blanks; with three the
  escaped blank is lost (`escape_trim_counterexample`).
* Note: a truncated command line may end in the separating blank
  (the third clause of `command_line_bounded_exact`).

### Framer (C07-C13, C57)

Modelled: `diminuto_framer_init`, `_set`, `_reset`, `_machine`, `_emit`, `_writer`,
`_reader`, `_read`, `_getmissing`, `_getduplicated`. Bytes of the 16-bit fields are
kept in little-endian memory order because the code fills them byte by byte and
converts in place. Not modelled: logging, the `debug` flag, stream errors, the
counts returned by the writer, `diminuto_framer_abort`, and `size_t` wrap of `total`.

The specification `IsFrame` is independent of both the machine and the writer, and
soundness (C09), completeness (C07, C12) and the cleanliness of the output (C11)
are all stated against it. The receiver invariant (`TInv`) ties every state to the
octets since the last flag.

* Note: XON and XOFF are counted in `total`, so the value returned by the reader
  includes them (C10 excludes that count explicitly).
* Note: the abort sequence ESCAPE FLAG is an abort only in the header and payload;
  during the CRC it is reported as invalid.

### Throttle and Shaper (C28-C30, C58)

`Throttle.lean` models the whole arithmetic of both with wrapping 64-bit ticks.  The specification
is the textbook one over unbounded times: a theoretical arrival time (TAT) that each commit moves to
`max TAT t + n * increment`.  `Rel` in `ThrottleLemmas.lean` is the refinement relation; the clock may
wrap any number of times, only the gap between commits and the debt must be below 2^64 ticks (`Sane`).
C28 gives the exact delay, the exact alarm, that honouring the delays never alarms, and the bound on
events in any window.  C29 compares a policer with both ATM Forum algorithms.  C30 lifts everything to
the shaper.  C58 is about the functions that compute the parameters.

Findings:

- Two commits without a request between them lose the events of the first
  (`throttle_double_commit_counterexample`); `diminuto_throttle_commitn` assigns `expected` from
  `actual`, which only a request refreshes.
- A caller that requests, sleeps for the delay and commits without requesting again is alarmed though
  its traffic conforms (`throttle_wait_without_request_counterexample`).
- The header says the alarm lasts until the traffic again conforms; it lasts until the bucket is empty
  (`throttle_alarm_outlasts_counterexample`).  The header also says that `commitn` returns true if the
  bucket is full; it returns the alarm.
- `diminuto_throttle_interarrivaltime` can overflow to an increment of zero, i.e. no throttling
  (`interarrival_overflow_counterexample`).

### List (C20-C23)

`List.lean` models every function of the feature that touches the links over a heap of `N` nodes, as three
functions from node to node.  Loops over pointers have fuel `N`, which is exact (a walk that has not ended after
`N` nodes repeats itself); `none` is "never returns".  `ListSpec.lean` is a specification without pointers: the
rings as sequences starting with the root.  `Rep` says that a heap holds exactly given rings; each operation
preserves it and returns what the specification says (`list_step_refines`), so every history from initialised nodes
does (`list_run_refines`), including self-insertion, removal of roots, cuts that contain the root, and so on.  C20 is
then stated on the raw pointers (`WellFormed`), C21 on a sequence per queue, and C22 on sequences.  Not modelled: the
data pointer, `diminuto_list_apply`, initialising a node that is on a list (which breaks the ring by design).

C23: `list_audit_exact` characterises, for every heap whatever, which heaps the audit accepts.

Findings:

- Enqueuing a node that is already the last of its queue removes it from the queue, contrary to "if the node is
  already on a list, it is first removed from that list before being inserted" (`list_enqueue_tail_counterexample`).
  The same happens with `push(q, root)` and `insert(x, x)`.
- The audit does not check the root of the node opposite the starting one on rings of even size, nor that the root is a
  member of the ring (`list_audit_counterexample`).  A first reading suggested that the links of the opposite node are
  unchecked too; the exact characterisation shows that its neighbours' checks cover them.

### Tree and Store (C24-C27)

`Tree.lean` models every function of `diminuto_tree.c` that touches the links, and the functions of `diminuto_store.h`,
over a heap of `N` nodes (parent, left, right, root, color, error mark) and `M` root pointers.  A null pointer that the
code goes through is `none`, and so is a loop that exceeds its fuel (`N + 2` for the fixups, `N` for walks), so that
`tree_defined` also proves that every call terminates.  Not modelled: the data pointer, the key and value pointers (the
comparator is an arbitrary function on nodes), logging, initialising a node that is on a tree.

`TreeSpec.lean` has the inductive tree, the red-black properties in terms of the list of all paths, and `Holds`, which
ties a root pointer to a tree.  The proof goes through a zipper (`St`: a context of frames and the subtree in focus);
rotations move the focus, `St.insertFixup` and `St.removeFixup` follow the loops of the code.  Half of the code is the
mirror image of the other half and is proved so (`TreeMirror.lean`).  `Rep` is the invariant over all trees; `Reach` are
the heaps after any calls whatever.  C24 holds even for inconsistent comparators.  C25 compares the pointers returned by
any history with an ownership map that knows no tree.  C26 states the sequence of nodes visited.  C27 is false as
stated.

Findings:

- `diminuto_tree_audit` accepts trees that are not red-black: black heights are only compared at nodes without children,
  so a black root with a single black child passes (`audit_lopsided_counterexample`); and it accepts a node that is both
  the left and the right child of another (`audit_twin_counterexample`).  It accepts every valid tree, terminates on
  every heap, and what it does guarantee is `audit_exact_partial`.
- `diminuto_store_replace` is documented to return null when there is no match; it returns the new node
  (`store_replace_null_counterexample`).
- Inserting next to a node that is on no tree goes through a null root pointer (`tree_insert_orphan`); the header does not
  say that the parent must be on a tree.

### Reader Writer (C34-C37, C59)

`ReaderWriter.lean` models `diminuto_readerwriter.c` as a transition system on `N` threads: a step is what a thread does
between taking the mutex and giving it up, in a begin, in the return of `pthread_cond_wait` (signaled or spurious) or
`pthread_cond_timedwait` (timed out), or in an end.  A thread that waits is asleep until the condition variable is
broadcast.  `none` is a failing `diminuto_contract` or audit, so `rw_never_fails` proves all of them for threads that
obey the protocol (`Event.Legal`).  Ghost state: which threads hold the lock, the numbers of the calls, and in which
order they were granted.  Assumed: mutexes and condition variables as in POSIX, counters do not wrap (2^31 threads), no
failing system calls.  The invariant (`Inv`) ties the counters to the holders and to the threads that have been given the
lock but have not returned yet.  The order of grants is the order in which the counters are incremented; the order
in which the begin functions return afterwards is up to the scheduler.

Progress (`rw_serves_everyone`) is stated without a fairness notion: while anybody waits or holds the lock there is
a thread that is awake and can make a step that counts, and such steps are finite in number.

Findings:

- A writer that times out at the head of the line strands the readers behind it until all present readers have ended
  (`rw_timeout_counterexample`); a reader with priority waits behind nobody in the same way
  (`rw_priority_counterexample`).  The comment in `diminuto_reader_end` shows that the author knows that readers can be at
  the head of the line then.
- A thread cancelled while it waits calls `wait_cleanup` with the mutex already taken (POSIX reacquires it before the
  cleanup functions run), so that it waits for itself and all other threads hang (`rw_cancel_counterexample`).  One
  cancelled after it has been given the lock, but before it returned from the wait, keeps the lock
  (`rw_cancel_leak_counterexample`).
- A reader that asks for the lock again while a writer waits is deadlocked (`rw_nested_counterexample`); undocumented.
- Requests with priority are granted last in first out among themselves (each is inserted at the head).
- `clocktime += timeout` overflows for timeouts near the maximum other than `DIMINUTO_READERWRITER_INFINITY`.

### Escape grammar and control law (C60, C61)

Both came out of seeding: a wrong value for upper-case hexadecimal digits and a wrong difference term survived, because
the earlier theorems only stated round trips and limits.  `EscapeGrammarSpec.lean` is the grammar of C escapes as an
inductive relation; collapse computes it, and it is total and functional.  `ControllerLawSpec.lean` states the law as a
function of the list of all calls.

### Memory (C53, C62)

`Memory.lean` models the arithmetic of `diminuto_memory.c` on `BitVec 64`.

Findings:

- `diminuto_memory_aligned` rounds its alignment up to a multiple of the pointer size, not to a power of two as the comment
  above it says, and `posix_memalign` rejects the result (`memory_aligned_valid_counterexample`: 17 becomes 24).
- `diminuto_memory_alignment` wraps to zero near the maximum (`memory_alignment_overflow_counterexample`).
- `diminuto_memory_linesize` does not close its file when `fscanf` fails (by reading).

### Frequency and Time (C44, C45, C51, C63-C65)

`Time.lean` models the conversions on `Int` with a range check after every operation; overflow and division by zero are
`none`.  `gmtime_r` and `timegm` are parameters; C63 is proved for any inverse pair, and `gregorian` is an instance, so that
the hypothesis can be met.  The body of `diminuto_time_logical` is a critical section, so the calls of all threads form
a sequence.  `diminuto_time_logical_set` is not modelled, nor the juliet functions and the clocks.

Findings:

- `diminuto_time_separate` and `diminuto_time_duration` overflow for `INT64_MIN`, which is `DIMINUTO_TIME_ERROR`, so that
  passing on a failed clock reading is undefined (`time_separate_overflow`).
- Conversion rounds negative ticks towards zero and is inexact, even too large, for frequencies that do not divide 10^9
  (`frequency_conversion_counterexample`); a frequency of zero divides by zero.
- "Roundup" rounds negative values away from zero, that is down (`frequency_round_exact`).

### Reading and writing (C46)

`Fd.lean` models `diminuto_fd_read_generic` and `diminuto_fd_write_generic` against a kernel that is a list of replies: any
short count, `EINTR`, end of file, an error.  The outcome is done, blocks (the list is used up), or undefined (an access
outside of the caller's buffer).  The theorems quantify over all lists.

Finding: a minimum above `SSIZE_MAX` becomes negative in the comparison, so that any reply satisfies it
(`fd_minimum_counterexample`).

### Well (C41, C66)

`Well.lean` models `diminuto_well.c` on the list model: two list heads (free, used) and `M` nodes, the data pointer of a node
being the object it lends out.  `well_refines_queue` needs no precondition: whatever pointers are freed, the calls
return what a queue of pointers would.  That each object is free or held, but not both, is then a property of the queue
under the precondition that the application frees only what it holds.  The layout (C66) is the arithmetic of `diminuto_well_init` on
`BitVec 64`.

Findings:

- `diminuto_well_free` does not check its argument: an object freed twice is handed out twice
  (`well_double_free_counterexample`).
- `size * count` can overflow; the well then believes in objects outside of its memory (`well_layout_counterexample`).
- An alignment above the page size is not honoured, since the memory is only aligned to pages
  (`well_alignment_counterexample`).

### Pool (C67)

`Pool.lean` models `diminuto_pool.c` on the list model, with any number of pools, objects and lists of the application; what `malloc`
returns is an argument of the call.  The specification is a relation on queues, one for each pool.

Findings:

- An object that is freed twice in a row is lost: it is the last of the queue, so that it is inserted after
  itself (`pool_double_free_counterexample`).  Freed twice otherwise it moves to the end of the queue.
- The allocation size wraps near the maximum (`pool_allocation_counterexample`).

### Buffer and buffer pool (C40, C68)

`Buffer.lean` models `diminuto_bufferpool.[ch]` and the `<stdlib.h>`-like functions of `diminuto_buffer.c`: addresses are
numbers, a block of the heap has a size, the union in the header is one number, accesses outside of blocks are
undefined (`none`).  What `malloc` returns is part of the call.  The specification (`View`) is a stack of buffers for each size
and the capacities of the buffers held; `buffer_refines` shows that the linked lists compute it, without
leak: the blocks allocated are those held and those pooled.  The loops of `fini` have no bound in the model, hence "for all
sufficiently large fuel".  Not modelled: `diminuto_buffer_set` (the header says that "wackiness may ensue"), the
string functions, the log.

Findings:

- A buffer freed twice forms a cycle and is handed out twice (`buffer_double_free_counterexample`).
- Requests within eight of the maximum wrap around, and the header is written outside of the block
  (`buffer_huge_counterexample`); the product in `calloc` wraps, so that too small a buffer is returned
  (`buffer_calloc_counterexample`).
- `diminuto_buffer_realloc` frees the old buffer even if no new one can be had (`buffer_realloc_counterexample`),
  unlike `realloc(3)`, for which it is meant to be substituted.

### Lock (C43)

`Lock.lean` models `diminuto_lock.c` as a transition system of any number of processes; a step is one system call, with partial
writes, errors, and crashes at any point.  The file system has names and inodes, so that a file which is renamed while another process still
has it open is the same file.  The specification is an atomic object: `history` computes from the log of what took effect or failed what
the lock file has to contain.  `lock_atomic_partial` is the refinement; the others are its consequences, and `lock_returns` ties the
return value to what took effect.  The theorems named `_partial` assume that `mkstemp` does not find a name that another call
is still going to use (`Fresh`).

Findings:

- After a successful `renameat2` the temporary name is free, and then the call unlinks it.  Another process whose `mkstemp` finds the same
  name in between loses its temporary file, or even renames the file of a third process and holds the lock under a wrong
  PID (`lock_name_counterexample`).  The name is random, so this is improbable; unlinking only after failure (or after `RENAME_EXCHANGE`)
  would make it impossible except for postlock.
- If `fclose` fails, which is when a full disk shows, the stream is closed again: undefined behaviour (`lock_fclose_counterexample`).
  `fd` is then closed once more, too.
- If `mkstemp` fails, `unlink` is called with the template, which glibc leaves as it was: a file that happens to have that name is removed
  (not modelled).

### Signal counters (C50)

`Signals.lean` models the handler, check and install functions that alarm, hangup, interrupter, pipe, reaper and terminator have in common, with any
number of threads; a step is one access to the shared counter.  Masking concerns the calling thread only, as `pthread_sigmask` does.  The
specification (`count`) is a saturating counter.  `Apart` says that no two threads access the counter at the same time; with one thread it always holds
(`signals_single_thread`).

Findings:

- In a process with several threads the kernel may deliver the signal to a thread other than the one that checks: the handler runs between
  `mysignaled = signaled` and `signaled = 0`, and the signal is lost (`signals_race_counterexample`).  The mutex does not help, since the
  handler does not lock it.
- Two handlers in different threads lose a signal, too (`signals_handlers_counterexample`).
- `diminuto_interrupter_install` and `diminuto_terminator_install` clear the counter after installing the handler; alarm, hangup, pipe and reaper
  do not (`signals_install_counterexample`).

### Timer (C52)

`Timer.lean` models `proxy`, `diminuto_timer_start` and `diminuto_timer_stop` with any number of expirations, each with its own thread, and any
number of threads of the application.  A step is one critical section.  `Apart` states the conditions under which stop does what it says:
calls of the function do not overlap, start does not overlap stop, and stop is not called while the state is `DISARM`.
`timer_stop_can_finish_partial` says that a waiting stop is never stuck.

Findings:

- Periodic timer with a function that takes longer than the period: the proxy of the next expiration finds `DISARM`, and tells stop
  that all is done while the function is still running (`timer_overlap_counterexample`).
- After stop has timed out the state is still `DISARM`; calling stop again returns success at once, though the function is still being
  executed (`timer_timeout_counterexample`).  The same happens to a second thread that calls stop (`timer_two_stops_counterexample`).
- The comment in `proxy` says that the function may call stop.  For a one-shot timer this waits for itself and times
  out (`timer_self_counterexample`).
- A one-shot timer that is started again by its function, before that returns, does not call it again: the proxy sets the state to
  `IDLE` at its end (`timer_restart_counterexample`).
- `diminuto_timer_start` writes the state outside of the critical section.

### Observation (C42)

`Observation.lean` models `diminuto_observation.c` as a transition system: any number of observations of one path, by any processes; a step is one
system call, or a write of the application to the stream, or a flush of any part of what is in the buffer of the stream; `fclose` and `rename`
are separate steps, and a process may crash at any point.  The file system has names and inodes.  The specification (`expected`) is that the
path has all of what was written to the observation that was committed last.  Crashes of the kernel are not modelled: there is no `fsync` before the
rename.

Findings:

- A path of one character is accepted by create, but commit and checkpoint refuse it: `sizeof(SUFFIX) < length` counts the terminating NUL
  (`observation_path_counterexample`).
- A checkpoint is a hard link, so that what is written afterwards appears in it; it also lacks what is still in the buffer of the stream
  (`observation_checkpoint_counterexample`).
- If `fchmod` or `fdopen` fails in create, the temporary file is left behind, and its name is not returned
  (`observation_create_counterexample`).
- In create, `*tempp` is read even if it has not been set (`} if (*tempp == temp)` for `} else if`).  The caller that does not initialise it has undefined
  behaviour after a failure; the caller that passes the pointer of a previous observation that happens to be equal leaks (not modelled).
- If `fclose` or `renameat` fails in commit, the stream that is returned is already closed; calling discard with it, as the comment suggests, is undefined
  behaviour, and not doing so leaves the temporary file (state `failed`).

### Dump (C54)

`Dump.lean` models `diminuto_dump_generic` with its nested loops; the output is a list of characters.  The specification (`showLines`) says what is
shown for every address; `dump_each_byte_once` says that the addresses have no gap and that every byte is among them once, and `dump_hex_value` that
the digits stand for the byte.

Findings:

- The address is printed with `%16.16x`, which is for `unsigned int`; with 64 bit addresses this is undefined behaviour, and in fact only
  the least significant 32 bits are shown, after eight zeros (`dump_address_counterexample`).
- If the address after the data, rounded up to a line, is 2^64 or more, nothing is shown (`dump_wrap_counterexample`).  This needs a virtual address
  close to the end of the address space.
- With a line length that is no power of two all is shown, but there may be a line without data (`dump_width_counterexample`).

### Path canonicalisation (C49)

`Canonical.lean` models `diminuto_fs_canonicalize`; `realpath` is an arbitrary function.  `Splits` is the specification of directory and file.

Findings:

- For `"/"`, `"/."`, `"/.."` and `"/file"`, `prefix` is empty and `prefix[xlength - 1]` is the character before it: undefined behaviour
  (`canonicalize_root_counterexample`, for every such path).  If that byte happened to be a slash, the result would be a relative path.
- `"."` and `".."`, which have no slash, are taken for file names: the result ends with `"/."` or `"/.."` (`canonicalize_dots_counterexample`).

### Multiplexer (C38, C39)

`Mux.lean` models `diminuto_mux.c` with its five sets; a set is the bits, the bounds and the next descriptor.  `FD_SET`, `FD_CLR` and `FD_ISSET` of
a descriptor outside 0..1023 are undefined (`none`).  `pselect` returns any subset of what it was asked for (`Select`).  The specification
of what is registered (`regsRun`) knows only the calls.

Findings:

- `diminuto_mux_set_ready` calls `FD_CLR(fd, &muxp->ready)` with `fd` -1 if the descriptor is ready but is in the other set which shares its ready
  set (read and accept; urgent and interrupt): undefined behaviour (`mux_ready_counterexample`; an abort with `_FORTIFY_SOURCE`, otherwise
  a bit outside or of another descriptor is cleared).  It happens if and only if such a descriptor lies between the descriptors of the set
  (`mux_clean`).
- If `pselect` fails (for example `EINTR`), the ready set for writing is what was asked for, so that descriptors that are not ready are returned
  if not all were returned before (`mux_error_counterexample`).  The ready sets for reading and accepting keep what was left from the
  wait before.
- A descriptor can be registered for both reading and accepting.  Unregistering one clears the bit that is passed to `pselect`, and the other one is no
  longer examined (`mux_wait_examines_counterexample`).
- `diminuto_mux_close` closes the descriptor even if it is not registered, and returns -2; the header says that it does not.
- The functions for unregistering return the descriptor; the header says zero.

### Endpoint parser (C47)

`Endpoint.lean` models `diminuto_ipc_endpoint_prefer`: the state machine works on a buffer of 4096 bytes with indices, and puts NULs into it; what follows
uses the strings at the marks.  Resolving (host names, services, paths) is a parameter (`Env`).  The specification has a grammar that
knows no states (`grammar`) and says what an endpoint stands for (`meaning`); `endpoint_meaning_partial` says that the function returns that, for
every string that fits.  The proof goes through an automaton on lists (`lst`).

Findings:

- A string of 4096 or more characters is accepted: the function ends with `return 0`, not `return rc`.  The structure then has the type "unspecified"
  (`endpoint_overlong_counterexample`).
- Ports go through `atoi` and are truncated to 16 bits: `:65616` is port 80 (`endpoint_port_counterexample`); a number that is no `int`
  is undefined behaviour (`endpoint_overflow_counterexample`).
- Any character with which no endpoint begins is skipped at the beginning, not only white space: `-1` is port 1, `~/socket` is `/socket`, `_x` is `x`,
  and `?` is the unnamed socket (`endpoint_ignored`, `endpoint_ignored_counterexample`).
- A malformed IPv4 or IPv6 address is not an error, but the unspecified address, so that for example `999.999.999.999:80` is every interface
  (`endpoint_address_counterexample`).  A host name that cannot be resolved is an error.
- Paths that begin with digits and a dot need a letter or hyphen before the slash: `10.0/socket` is a syntax error.

### Meter (C69)

`Meter.lean` models `diminuto_meter.c`; how a rate is computed and rounded in `double` is a parameter (`Rating`), so nothing depends on it.

Findings:

- `diminuto_meter_update` sets `last`, which is documented as the time of the most recent event, so that the rate of the next event is measured
  from the update: the peak rate is too high, or infinite (`meter_peak_counterexample`).
- The events of the first call count for the sustained rate but not for the peak rate, so the sustained rate can be greater
  (`meter_sustained_counterexample`).
- `diminuto_meter_average` of a meter without events is 0/0, a NaN.

### Internet checksum and ping (C70, C71)

`Ping.lean` models `diminuto_inet_checksum` and the datagrams of `diminuto_ping4.c`, for both byte orders.  The specification `rfc1071` adds
words in network byte order in ones' complement arithmetic.

Findings:

- The sum has 32 bits: it overflows for messages of more than 131074 bytes (`inet_checksum_counterexample`).
- `diminuto_ping4_datagram_receive` does not check that the header (up to 60 bytes, by its length field) is not longer than the datagram.  If it is,
  the size passed to the checksum is negative, converted to `size_t` (`ping_header_counterexample`).  Linux drops such datagrams
  before they get to a raw socket.
- A datagram of more than 84 bytes is cut off; it is accepted if the checksum of the part happens to be zero.  That is so for replies to its own requests
  whose header has options, because the request ends with zeros (`ping_round_trip` includes these).

### Print hexadecimal (C72)

`Phex.lean` models `diminuto_phex.c`; the specification reads back (`read`) and counts columns (`column`, `width`).

Findings:

- `*endp` says that the last call ended a line *before* it printed; but it is taken for the line being empty.  So `diminuto_phex_limit` with zero does not
  end a line whose only character did not fit on the line before (`phex_finish_counterexample`), and an unescaped newline after such
  a character, or after another newline, is lost (`phex_newline_counterexample`).
- An unescaped newline does not set the column to zero: the next line is ended early (`phex_early_counterexample`).
- The increment -1 for a newline can get into the column: 0 - 1 is the greatest `size_t`, and the next line may have one character too
  many (`phex_long_counterexample`).
- With length zero, unescaped newlines are all lost (`phex_unlimited_counterexample`).
- For C, `\0` followed by a digit, and `\x` with two digits followed by a third, are other characters; phex does not separate them.

### Scatter/gather (C73)

`ScatterGather.lean` models `diminuto_scattergather.c` on the heap of list nodes of `List.lean`; buffers are numbered, and `malloc`, `writev`,
`readv`, `sendmsg` and `recvmsg` are arguments of the calls.  The specification (`ScatterGatherSpec.lean`) has no pointers: a pool or
record is a sequence of nodes, a segment is some bytes, and what comes in is specified byte by byte (`Segment.receive`).  The proof is by an
invariant between the two (`Inv`: `Holds` for the links, `Mem` for the buffers, `Roles`) kept by every call.

Left out: the mutex (so calls are atomic), `diminuto_scattergather_record_dump`, the addresses of datagrams.

Findings:

- `diminuto_scattergather_record_send_generic` and `_receive_generic` initialise the result to 0 where `_write` and `_read` have -1, so that sending or
  receiving a record with no segments or more than 1024 is reported as a transfer of zero bytes; for a stream, zero received is the end of file
  (`scattergather_send_failure_counterexample`).
- Appending a segment to a record of which it is already the last takes it off the record
  (`scattergather_append_last_counterexample`; the cause is `diminuto_list_enqueue`, C21).
- `sizeof(header) + size` may overflow: a segment with the length asked for but no room (`scattergather_size_overflow_counterexample`).
- `diminuto_scattergather_record_measure` tolerates a segment whose data pointer is null; `_vectorize` and `_dump` follow the null pointer
  (`scattergather_null_segment_counterexample`).
- `diminuto_scattergather_record_segment_insert` is `diminuto_list_splice`: if the segment given is on a record already then the whole ring, including
  that record itself, is spliced in.  The specification requires a segment that is on no record.

### Poller (C74)

`Poll.lean` models `diminuto_poll.c` on the sets of `Mux.lean`.  The array of `struct pollfd` is a list whose elements are undefined until they are initialised;
`ppoll(2)` reports for each element what is asked for, and errors.  The invariant (`PollLemmas*.lean`) is that if the array need not be made again then it is
what it would be if it were made now.

Findings:

- `diminuto_poll_close` does not set `refresh`.  The array is then the old one, while the minimum by which it is indexed is the new one: the kernel is asked about the closed
  descriptor, each wait returns at once with 1 (`POLLNVAL`), and other descriptors are not waited for (`poll_close_lost_counterexample`);
  if the number of the closed descriptor is used again, its events are attributed to another (`poll_close_wrong_counterexample`).
- A descriptor with only an error (`POLLERR`, `POLLHUP`, `POLLNVAL`) is counted but no ready function returns it (`poll_error_counterexample`): an endless loop.
- An accepting descriptor between two reading descriptors makes `diminuto_mux_ready_read` clear bit -1, as for the multiplexer (`poll_ready_counterexample`).
- The result of `realloc(3)` is not checked (`poll_memory_counterexample`).
- With no descriptors and no timeout the function returns 0 at once; the header says that it blocks (`poll_forever_counterexample`).

### Addresses (C75, C76, C77)

`Address.lean` models memory byte by byte with the byte order of the host as an argument; `number` in `AddressSpec.lean` is the value of bytes in network order.
An element of the list of `getaddrinfo(3)` may have no address, as the code allows.  `stored` is what is stored; it is related to the two loops by `store_eq`.

Findings:

- The array of addresses ends with "::", and so a host that has "::" itself ends the array early (`address_list_counterexample`).
- `address2type`: 127.0.0.0 is "public" (`address_loopback4_counterexample`); "6to4" and "atap" are tested after global unicast, of which they are parts, and are
  never returned (`address_6to4_counterexample`); the name "atap" should be "isatap".
- `malloc(3)` is not checked in `diminuto_ipc6_addresses`, `diminuto_ipc6_interface`, `diminuto_ipc4_interface`.

### Thread (C78, C79)

`Thread.lean` models `diminuto_thread.c` as a transition system: a step of a caller or of a thread is one critical section, or one access to the object where the code does without
the mutex (`diminuto_thread_join_until` reads the state and the value without it).  The environment decides what `sigaction(2)`, `pthread_create(3)` and the setup of the thread do,
when there are spurious wakeups and timeouts, and what the function does (return, `diminuto_thread_exit`, being cancelled).  A second `pthread_join(3)` for a thread, and a signal to a
thread that is gone, are undefined.  The specification (`ThreadSpec.lean`) only sees histories of what can be observed: `Phase` says what may happen, `Right` what a join returns, `pending`
what is counted.  `ThreadLemmas.lean` has the invariant for any callers, `ThreadLemmas2.lean` the one for one caller at a time, `ThreadLemmas3.lean` executions and progress (a rank
that each step of the caller decreases).

Left out: failures of the mutex and condition, `diminuto_thread_fini`, cancellation while the thread holds the mutex.  An access to an object that is being written without
the mutex is taken to be atomic although it is a data race in C.

Findings:

- `diminuto_thread_join_until` reads `state` and `value` without the mutex.  Two callers may both see EXITING and both call `pthread_join(3)`: undefined
  (`thread_join_twice_counterexample`).
- The loop that waits only ends with EXITING.  A caller that is woken up after another has joined the thread (JOINED) waits for ever (`thread_join_forever_counterexample`).
- A start between JOINED and the reading of the value makes the join return success with the initial value ~0 (`thread_join_restart_counterexample`).
- If `pthread_setspecific(3)` fails in the new thread, the state stays STARTED and nobody is woken up: a join without limit does not return and the object cannot be started again
  (`thread_join_broken_counterexample`).
- `notifications` is an `int32_t` which is compared with the greatest `unsigned int`; so it does not saturate as the header says but overflows
  (`thread_notify_counterexample`).
- `diminuto_thread_init_base` sets the attributes to zero but does not call `pthread_attr_init(3)`; `diminuto_thread_fini` changes the object without the mutex;
  `diminuto_thread_exit` makes `proxy_cleanup` run twice, which is harmless (`.exit` in the model).

### Numbers and ports (C80)

`Number.lean` models `diminuto_number.c` and the conversion of ports, with `strtoull(3)` and `strtoll(3)` of glibc as functions on lists of characters, which are proved equivalent
(`scan_iff`) to the grammar of numerals in `NumberSpec.lean`.  `getservbyname(3)` is an arbitrary function.

Findings:

- The empty string is accepted as zero: nothing is converted, but nothing is left (`number_empty_counterexample`).
- `diminuto_number_unsigned` accepts a minus, `-1` is 2^64-1 (`number_negative_counterexample`), and so `diminuto_ipc_port("-18446744073709551615")` is 1
  (`number_port_negative_counterexample`).
- A port with a leading zero is octal (`number_port_octal_counterexample`), e.g. in "localhost:080" (which is not a number, and so port 0).
- A number that is out of range and is followed by other characters sets `errno` to EINVAL instead of ERANGE (`number_unsigned_reads`).

### Walk, directories, search (C81, C82, C83, C84)

`Walker.lean` models `diminuto_fs_walker` with its buffer of 4096 bytes; recursion is well-founded since each level makes the path longer.  System calls and callback are arbitrary
functions of a state.  `WalkerLemmas.lean` proves that the buffer always holds the path (`walker_eq`), the other lemmas then work on paths.  The specification is a static file system
(`Fs`) and the inductive set of objects below a root (`Below`); `Outcome` says where the callback stops the walk; `watched` notes failures in the state.  Simplification: the entries that
`readdir(3)` returns are decided when the directory is opened.

`Mkdir.lean` models `diminuto_fs_mkdir_p` and `diminuto_path_scan` with `strtok_r(3)`; `Split` is the relation between a string and its components.  `Honest` is `mkdir(2)` in a file system
without links; `.` and `..` are components like others there.

Findings:

- If `closedir(3)` fails after the callback has stopped the walk, -9 is returned instead of what it returned (`walker_closedir_counterexample`).
- A root of 4095 characters fits into the buffer but is refused with -5, since a separator is counted that is not needed (`walker_longest_counterexample`).
- The check of the depth (-3) never fires: a path of that depth does not fit (`walker_errors`).
- `EOVERFLOW` is ignored for `lstat(2)` but not for `opendir(3)`.
- `DIMINUTO_FS_TYPE_9` is '0' in the header (`walker_type9_counterexample`).
- `diminuto_fs_mkdir_p` returns 0 if the last object exists and is a file (`mkdir_file_counterexample`), unlike "mkdir -p".
- `diminuto_path_scan` ends the search at a candidate that is too long (`path_scan_counterexample`); an empty element is skipped, while in PATH it means the current directory; a directory
  of that name is found too.

### Text of endpoints and local sockets (C85, C86)

`EndpointText.lean` models `diminuto_ipc_endpoint2string`; `inet_ntop(3)` for IPv6 is a parameter of which `Printer` says what is used: its texts are read back by the `inet_pton(3)` of the
parser model, are not empty and have at most 39 characters.  The specification `Shows` says which text an endpoint has, with its own decimal numbers.  The round trip goes through the parser
model of `Endpoint.lean` (C44).

`Ipcl.lean` models the path and address functions of local sockets with the model of `diminuto_fs_canonicalize` (`Canonical.lean`).  `Names` says which canonical path a path names.

Findings:

- A socket right below the root ("/x") makes `diminuto_fs_canonicalize` read the byte before its buffer, so `diminuto_ipcl_path` is undefined for it (`ipcl_path_root_counterexample`), and
  printing an endpoint that resolved to one is too (`ipcl_path2string_counterexample`).
- Paths of up to 254 characters are accepted, but `sun_path` has 108: longer ones are cut silently, so that a socket is bound or connected to another path
  (`ipcl_address_counterexample`, `ipcl_address_accepted_counterexample`).
- A path of 108 characters is not terminated in `sun_path`; `diminuto_ipcl_identify` reads beyond it if the buffer is larger, which a `diminuto_local_t` is (`ipcl_identify_counterexample`).  With a size of 0 it
  writes before its buffer.
- "/tmp/.." is accepted as the name of a socket (`ipcl_path_dots_counterexample`).
- `diminuto_ipcl_compare` of two null pointers is not zero (`ipcl_compare_null_counterexample`).
- Without an address, the text of an endpoint does not tell IPv4 from IPv6 (`endpoint_text_apart_counterexample`); 0.0.0.0 without port has the empty text, which reads back as an unnamed
  local socket (`endpoint_text_any_counterexample`); two ports or two addresses have a text the parser refuses (`endpoint_text_syntax_counterexample`).  The header calls the text
  "only intended for display".

### Making sockets, interfaces, options (C87, C88, C89)

`Socket.lean` models the eleven functions that make sockets (stream and packet functions for local sockets differ only in the style, a parameter) over arbitrary system calls.
`SocketSpec.lean` has a table of open sockets and a set of paths; `Honest` says what each call does to an open socket, and nothing about calls for others, so a second close or a use after
close is not provable to be harmless.  `Decent` says that the function of the caller does not close or bind the socket.  A concrete system (`kernel`) meets all hypotheses.

`Interfaces.lean` models the lists of interfaces and addresses with the offsets in the block that is allocated; a write beyond it is undefined behaviour.  `Options.lean` models the
socket options.

Findings:

- If `connect(2)` fails after a local consumer has been bound to its own path, or `listen(2)` fails for a provider, the path is left in the file system; trying again fails in `bind(2)`
  (`socket_left_counterexample`).  The caller would have to call `diminuto_ipcl_remove` after every failure, but does not know whether the path is its own.
- A null pointer for the path of the provider, which `diminuto_ipcl_path` returns for a path that cannot be resolved, is undefined behaviour for a consumer (`socket_null_counterexample`),
  while the comment in `diminuto_ipcl_source` says that NULL is handled "so that the canonicalize function can be used directly as an argument".
- Names of interfaces of more than 15 characters are cut (`socket_interface_counterexample`).
- `diminuto_ipc4_stream_provider_base` does not limit the backlog to `SOMAXCONN` as the others do; the effect is the same, since the kernel does.
- `malloc(3)` is not checked in the three functions for interfaces (`interfaces_memory_counterexample`).
- `diminuto_ipc4_interface` and `diminuto_ipc6_interface` return an array without addresses, not NULL, if there is no such interface (`interfaces_missing_counterexample`); a null pointer for the
  name is undefined behaviour (`interfaces_null_counterexample`).

### GPIO lines (C90, C91, C92)

`Line.lean` has the search for a line, as a callback of the walk of C81 (`Walker.lean`), and the parser, which uses the models of C49 (`Canonical.lean`) and C80 (`Number.lean`).  `line_find` is for a file
system and controllers that do not change (`Board`); it follows from `walker_visits` by a relation between the two walks (`WalkerRel.lean`: walks with related calls have related results).
`line_find_closes` and `line_find_genuine` are for arbitrary calls; the state keeps a note of descriptors that are open, or of what has been opened and got.  `LineRequest.lean` has the rest; the
request is compared with `Asks` member by member, and the values of lines are those of a kernel that does what it should or fails.

Trusted: names of lines are strings of the kernel; a controller has fewer than 2^31 lines (otherwise `ii` overflows); `unsigned long` has 64 bits.

Findings:
- `diminuto_line_find` cuts a path that does not fit into the buffer and succeeds; with a size of zero it returns the buffer without having written to it.
- If the name of one line of a controller cannot be got, the lines after it are not looked at.
- `diminuto_line_parse` leaves white space and signs after the sign to `strtoul(3)`: `"/dev/gpiochip0:-+2"` and `"/dev/gpiochip0:- 2"` are accepted, and
  `"/dev/gpiochip0:--18446744073709551615"` is line 1, inverted.  `"/gpiochip0:2"` reads before the beginning of a string (as C49).  Offsets of 64 or more are accepted, and later refused by
  `diminuto_line_open_generic`.
- `diminuto_line_open_generic` refuses 64 lines (`lines < countof(request.offsets)`).
- The header says that the bit of a line in a mask is `1ULL << line`; for the kernel it is the position of the line in the request.
- `diminuto_line_put` with a state of -1 returns -1, as if it had failed.

### Delays, mapped memory, descriptor tables, expanded paths (C93, C94, C95, C96)

`Delay.lean` has the loop around `nanosleep(2)`, with the conversions of C10 and a bound on the number of calls; the outcome `sleeping` is that of a loop that has not ended, and `delay_returns` says that
it ends if there are fewer signals than the bound.  `Map.lean` has the three functions with arbitrary system calls; `Honest` says what `mmap(2)` and `munmap(2)` do to the memory that can be seen.
`FdMap.lean` has the table as the memory behind the pointer, and a null dereference or an access outside as `none`.

Findings:
- `diminuto_map_map` computes `length + offset` without a check: with a length near 2^64 a small mapping is made and success is reported.
- `diminuto_map_minimum`: if `fclose(3)` fails the descriptor, which is closed nevertheless, is closed again (in a program with threads that may be the file of another one).  If the file
  cannot be opened the result is 0.
- `diminuto_fd_map_alloc` does not check the result of `malloc(3)`.  `diminuto_fd_maximum` or `diminuto_fd_limit` return -1 for an error or no limit; with this count the memory has zero
  bytes and the count is stored behind it.
- `diminuto_fs_expand` cuts silently.

### Pins (C97)

`Pin.lean` has the attempts, the configuration, and all functions on top of it, with arbitrary calls; the theorems compare the sequence of calls that has been made, with their results, to the
specification (`Sets`, `Writes`, `Waits`).  `PinKernel.lean` has a kernel whose files appear some time after a pin is exported.

Findings:
- `diminuto_pin_configure_generic` ignores its argument `delay`.
- If `diminuto_pin_setup` fails after the export, the pin remains exported, and `diminuto_pin_unused` with the NULL it has returned does nothing.
- `diminuto_pin_unused` leaves the stream open if the pin is not exported any more; if `fclose(3)` fails it returns a stream that must not be used.
- The check for names that are too long looks at a byte that is always zero; such names are cut and opened.
- `diminuto_pin_put` reports success if nothing or one byte was written.

### I2C (C98, C99)

`I2c.lean` has the five composite operations as they are in the source, and a process with any number of threads that call them: a step is to lock the mutex, to make one of the calls, to unlock, or to be
cancelled at a call.  `whole_exec` relates the two, `inv_step` is the invariant; `Serial` is a history of whole operations, and of operations that were cut short by a cancellation.  The claim
is for threads that use only these operations: `diminuto_i2c_use`, `_read` and `_write` are not protected.  `bus` is a bus of devices with registers and a pointer that is advanced.

Findings:
- `diminuto_i2c_set`, `_set_get` and `_get_set` send the number of the register and the data as two messages, with a stop between them.  For devices that take them in one message (SMBus "write
  byte", and NXP UM10204 as the header cites) the first byte of the data is the number of a register: with one byte nothing is set (`i2c_set_counterexample` is for all registers and values).
  `diminuto_i2c_send` with the number before the data works.
- All of these return the number of bytes, not the documented 0, and take a transfer of fewer bytes than asked for as success.
- The buffer for the name of the device has room for two digits: `diminuto_i2c_open(100)` opens `/dev/i2c-10`.
- A size of 0 is an error.

### Critical sections (C100)

`Verif/Section.lean` has one model of `DIMINUTO_CRITICAL_SECTION_BEGIN`, `TRY`, `END` and the cleanup handler for any body: a body is a step function on its local state and the shared state.  A step
of the process is a lock, a failed try, one step of a body, an unlock, or a cancellation, of any thread.  The invariant (`Verif/SectionLemmas.lean`) says that there is a history of sections that, executed
one after the other, gives the shared state.  The Log feature uses it for its write loop.

- Trusted: a POSIX mutex.  Locking does not fail.  A body that blocks for ever or locks the mutex again is outside of the model.
- `atomic_apply_adds` is for a functor in which a lost update would be possible, since it loads and stores in different steps.

### Log (C101 to C105)

`Verif/Log.lean`.  `write(2)` is an arbitrary function that is honest; the loop is a body of a critical section.  `vsnprintf(3)` gives an arbitrary text.

Findings:

- **Failures to write are taken for success.**  `diminuto_log.c:463`: in `rc > total` an `int` is compared with a `size_t`, so -1 is greater than any size.  The message is dropped, `EINTR` is never retried,
  and `diminuto_log_lost` is not incremented; the branches for errors are dead code (`log_delivered_counterexample`; mutant lg26 survives for this reason).
- **A message to a closed descriptor never returns.**  `diminuto_log_vlog` holds the mutex, which is not recursive, while it calls `diminuto_fd_type`; if `fstat(2)` fails that logs its own error, which
  locks the mutex again.  This happens with the automatic strategy (the default) in a process that has closed descriptor 2 and has not logged to the system log (`log_route_counterexample`,
  `log_route_hangs`).
- `diminuto_log_setmask`: an empty value sets the mask to 0; 4294967296 does so too, and a number that is out of range sets it to -1, because `strtol(3)` returns a `long`.  A number without digits is not
  rejected, since only the character after it is looked at.
- `diminuto_log_importmask`: a first line that is blank, or is a comment, sets the mask to 0; `~0` followed by anything is all.
- `buffer[total-1]` would be before the buffer if both the header and the text were empty.  The header never is (`log_message_line`).

### Bits, Swap, Absolute, Minimum and Maximum, Comparator, Testify (C106 to C109)

`Verif/Basics.lean`, with the specification (`bitsOf`, the words, `CString`) in `Verif/BasicsSpec.lean`.  All are computed for every width.

Findings:

- `DIMINUTO_BITS_GET` of the most significant bit of an element of a signed type is -1, not 1.
- `DIMINUTO_SWAP(x, x)` sets it to 0.  `abs32` and `abs64` of the least value are undefined; `abs8` and `abs16` are negative.
- `diminuto_compare_pointers` converts a 64-bit difference to `int`: pointers 4 GB apart compare equal, and the order has cycles, so that a tree ordered by it can lose nodes.
- `diminuto_testify("4294967296", …)` is false.

### Serial (C110, C111)

`Verif/Serial.lean`.  The terminal driver is an arbitrary state machine; `Faithful` (sets all or fails) and `Standard` (POSIX: succeeds if it could make any change) are in `Verif/SerialSpec.lean`.
The constants are those of the generic `<termios.h>`.

Findings: settings are not read back (`serial_set_counterexample`).  With parity `INPCK` is never set, so that parity errors of the input are not checked.  `diminuto_serial_raw` leaves `IXOFF`.
`diminuto_serial_set` reports `ENOTTY` for what is not a terminal but the other functions `EINVAL`.

### Daemon (C112, C113)

`Verif/Daemon.lean` is a transition system of three processes; `Verif/Sanitize.lean` the context of the grandchild.  C112 is proved by invariants over all interleavings, and by a measure that shows that they end.

Findings:

- With `SIGCHLD` ignored (as a daemon itself may inherit it) `waitpid(2)` fails with `ECHILD` and failure is reported although the daemon runs.  The caller that tries again starts another.
- `diminuto_daemon_verify` takes every child of process 1 for a daemon.  In a container this is the program itself: it is neither a daemon nor does it exit.
- `diminuto_daemon` may return to the daemon before it is a child of process 1, so that a second call there would make another one.
- The null device is opened before the descriptors are closed, so that a process that has no descriptor left keeps its terminal.  A failure to open is logged and then ignored.
- `fileno(3)` is called for a stream that has been closed, and for streams that are NULL; the parameter `mode` is not used, and output streams are opened for reading.  The signal mask is not reset.
- `execl("/bin/sh", "bin/sh", …)`: argument zero lacks its slash.

### Spin (C114)

`Verif/Spin.lean`: threads that spin on `__sync_lock_test_and_set`, with bodies of arbitrarily many atomic steps (the `Body` of `Verif/Section.lean`), and cancellation in a body.  The proof is a simulation by the critical
sections of C100 as long as no thread is cancelled.  Sequential consistency is assumed; the acquire and release order of the builtins is what justifies it for data that is only used in sections.

Findings: unlike critical sections there is no cleanup handler, so that a thread cancelled in its body leaves the lock set: all others spin for ever (`spin_cancel_never`).  A section within one of the same lock spins for ever, too.

### Mask (C115)

`Verif/Mask.lean`: a language of programs (sections, arrivals of signals, `pthread_sigmask`, cancellation) with the mask, the pending set and the list of signals handled.  Standard signals are not queued; that is `mask_twice_counterexample`.

Findings: `DIMINUTO_UNINTERRUPTIBLE_SECTION_BEGIN(SIGKILL)` succeeds and blocks nothing, because `sigprocmask` ignores such signals silently.

### Condition (C116)

`Verif/Condition.lean`: a transition system of any number of threads that call the functions of `diminuto_condition.c` on one recursive mutex and its condition; waits may be woken spuriously and by time.  On it a second
system, `Handoff`, of the usual loop; its invariant shows that no wakeup is lost, and that it never gets stuck.

Findings: `pthread_cond_wait` releases a recursive mutex once.  A thread that has locked it twice waits with the mutex locked, so that no other thread can change what it waits for (`condition_nested_never`).
`diminuto_condition_wait_until` with a time of 2^63 ns or more, other than `DIMINUTO_CONDITION_INFINITY`, fails with `EINVAL` or returns at once.

### The search for the nearest node (C117)

`Verif/TreeCloseProps.lean` uses the model of the red-black tree (C24 to C27).  `diminuto_store_find_close` is `diminuto_tree_search` with a comparison and a pointer for its last result.

### Ping6 (C118)

`Verif/Ping6.lean` has the packets as bytes, as in the model of the IPv4 pings.  Reads beyond the received bytes are `none`.  Finding: `elapsed` is stored for every reply, also one that is too short for a time, for which it is the
time since the Epoch, although the documentation says that it is only stored if the packet is long enough.

### Reaper (C119)

`Verif/Reaper.lean` is a transition system of the children of a process, with `waitpid(2)` as a relation (any zombie may be chosen; `EINTR` and `ECHILD` as outcomes), and a second one of the program with the pending signal and the counter of the handler.
Groups of processes are left out.  Findings: `diminuto_reaper_wait` returns zero, which is not documented, if there is no child; a program that reaps once for each check forgets a child for ever if two terminate for one signal
(proved in the model, so that the loop is necessary).

### Realtime (C120)

`Verif/Realtime.lean` models `fscanf` with `%d` as in glibc (`strtol`, then truncation), and has the value of `errno` at the end of the file as a parameter, because the code decides by it and does not set it before.  glibc sets it to zero
at the end of a file, which POSIX forbids; other libraries do not.  Findings: the truncation (4294967297 counts as 1), and that an empty file is an error or not by what `errno` was.

### Module (C121)

`Verif/Module.lean` has the dynamic linker as reference counts, with three behaviours where POSIX leaves it open.  Findings: `diminuto_module_handle` passes `RTLD_NOLOAD` alone; glibc refuses a mode with neither `RTLD_LAZY` nor `RTLD_NOW`, and the
function treats that as "not loaded" without a message, so that it never returns a handle there; the forced unload always calls `dlclose` with a handle that is not open any more, which POSIX does not define.

### The memory mapped driver (C122, C123, C124)

`Verif/Driver.lean` has registers as memory of bytes, a datum as its eight bytes (so that the order of bytes does not matter), and records every access.  The semaphore is the mutex of the model of critical sections, so that the atomicity is an
instance of C100.  `Verif/KernelMap.lean` has the kernel's lists of regions, mappings and devices; `release_mem_region` removes only a region with exactly the given first address and length, as `__release_region` does.
Findings: (1) `op.offset > length` lets an application read and write up to eight bytes after the registers, since neither the width nor equality is considered; (2) a command without the direction "write" uses an uninitialised structure;
(3) `release_mem_region` is called with `end - start`, but `end` is the last address, so that no region is ever released and an exclusive driver cannot be loaded a second time; (4) when `proc_create_data` fails without a major number,
`unregister_chrdev(0, …)` is called in place of `misc_deregister`, and the device stays registered with the code of a module that is being freed; (5) operations that fail for their width or alignment are not counted as errors.

### C125–C126: the environment of U-Boot (`Verif/Uboot*.lean`)

The model has the table of `Diminuto/bin/getubenv.c` entry by entry, the unrolled loops, and `main` with the mapped memory as an argument.  A read beyond the end of the memory or the table, and an
addition to the null pointer of `strchr(3)`, are undefined behaviour.  The specification of the checksum is the shift register of CRC-32, bit by bit, and does not mention the table; the proof goes by the
linearity of the register over GF(2), with the 256 entries checked by the kernel.  The detection of bursts is proved for every burst of up to 32 bits, aligned or not, and that 33 bits are too many by the
polynomial itself.  The environment is specified as the bytes that a list of entries is laid out in; that the program prints the entries is proved in both directions, so whatever is printed with a status
of 0 is the content of a well formed environment.

Findings: `strncmp(name, keyword, value - keyword - 1)` compares only as many characters as the name of the entry has, so `getubenv bootdelay` prints the value of `boot` if that entry comes first, and
`getubenv bootcmd` prints it even if there is no `bootcmd` (`uboot_looks_up_counterexample`); an entry with an empty name matches everything.  With a matching checksum, an entry without `=` makes the
program add to a null pointer, and data without a NUL makes it read beyond the end of the mapped memory (`uboot_malformed_counterexample`); the comment in the program admits the assumption.  If the memory
cannot be unmapped the status is 5 although the value has been printed.

### C127–C128: wiping a storage device (`Verif/Wipe*.lean`)

The model has the device as arbitrary functions for `write(2)` and `read(2)` on an arbitrary state, with short writes, `ENOSPC`, other failures, and the reopening; the fallback of `wipe` to smaller writes at the end of the device; the
rounding of the sizes with 64 bits; and both orders of bytes.  The progress messages and the time are left out, except that the modulo of the messages is a division.  The specification is a device with contents and a
position, and the pattern as a linear congruence on numbers.  `wipe_success` is proved by an invariant of the loop that reads, `wipe_completes_partial` by one of the loop that writes and a bound on the number of turns; that the words are distinct
by the order of the multiplier (`4294967311 = 2^32 + 15`): the sum of its first `m` powers is divisible by `2^64` exactly if `2^61` divides `m`, and the distance of two words is that sum times `(a - 1) seed + 17`, which is odd.

Findings: (1) the offset that is reported for a mismatch uses a counter that counts down, so the offsets within a block are mirrored (`wipe_offset_counterexample`: the first word of the device is bad, and the offset 16 is reported);
(2) `-s 0` and `-b 0` divide by zero before anything is done, and `-m 0` after the first write (`wipe_zero_counterexample`, `wipe_modulo_counterexample`); (3) on a device that refuses writes it has no space for as a whole, the bytes
after the last whole sector are kept, which is found by comparing the totals (`wipe_tail_counterexample`); (4) up to seven bytes at the end of the device are written but not verified; (5) the pattern repeats itself after `2^61` words and not
`2^64`, because the multiplier is 3 modulo 4, and the low four bits of its words alternate between two values (`wipe_nibble`).

### C129–C130: the tool that shapes traffic (`Verif/ShaperTool*.lean`)

The model is `bin/shaper.c` over the models of the shaper, of the checksum and of `diminuto_fd`.  The clock is an arbitrary function of the number of the reading; the delays are not trusted to wait, since the loop asks again after each of them.
The bound `n` on the number of requests stands for a wait that has not ended.  `shaper_sustained` and `shaper_peak_partial` are proved by an invariant of the loop which says that the blocks committed so far conform to the generic cell rate algorithm
for both throttles, and the window theorem of C28's specification.  They are about the times at which the blocks are committed, just before they are written: a reader that is slow and then fast may see more.  The signal handlers, which report
and exit with a status of zero, and the rates in floating point are not modelled.

Findings: (1) with both rates and without `-m` the peak rate is silently replaced by the sustained rate even if it is lower, and the check that refuses a sustained rate above the peak rate is not reached (`shaper_peak_counterexample`);
(2) without any rate the traffic is shaped to one byte in a second, because the interarrival time for a rate of zero is a second, although the comment says that traffic is shaped if parameters are provided (`shaper_unshaped_counterexample`,
`shaper_unshaped_rate`; `shaperbuffered.c` has a flag for this); (3) `diminuto_fd_write` returns a short positive count if a write fails after part of the block, which is not compared with the size: the rest of the block is lost, the
total and the checksum count it, and the status is zero (`shaper_data_counterexample`); (4) a write that returns zero ends the tool with a status of zero; (5) the comment gives the unit of `-j` as ticks, the tool takes microseconds, and
overflows if it is given more than `2^63 / 1000`; (6) at the end `duration` is divided by if `elapsed` is positive, which is another variable.

### C131: the tools that convert numbers (`Verif/Dec*.lean`)

The model is `bin/dec.c` over that of `diminuto_number`, with `fgets(3)` on a buffer of 64 bytes, strings that end at a NUL, and `isspace(3)` of a signed `char`, which is undefined for characters outside ASCII.  The specification is the grammar of
numerals of C80 (`Reads`, `Denotes`) and arithmetic on bytes.  The composition (`dec_pipe`) is proved from the form of the lines: none is longer than 62 characters, so `fgets(3)` does not split it.

Findings: an empty argument, and an empty line, are zero; numbers of more than 64 bits are silently the largest; `htons 65537` is `256`; a line of more than 63 characters is taken for several (`dec_long_counterexample`); what follows a number after
white space is ignored; a character outside ASCII after a number is given to `isspace` as a negative value.

### C132: the tool that calculates addresses (`Verif/Ipcalc*.lean`)

The words are those in memory, with the bytes in network order, on machines of both kinds; the specification is arithmetic on the numbers that the addresses are: a mask is `2^32 - 2^bits`, and an address is divided into
quotient and remainder by `2^bits`.

Finding: addresses of the classes D and E get the mask of class C without an error.

### C133, C134: the tool that manipulates memory (`Verif/Memtool*.lean`)

The model is `bin/memtool.c` over the models of `diminuto_map` and `diminuto_number`.  Behind the physical addresses is a bus, which is an arbitrary automaton that answers to loads, stores and delays, so that each access through a `volatile`
pointer counts, and the order of them.  A pointer is translated by the virtual memory of the process; an access that is not aligned or not mapped, and a shift by too much (31 for the types that are promoted to `int`), are undefined.  The
specification (`follow`) is an interpreter of the commands on physical addresses and natural numbers that knows nothing of mappings; stored words are given bit by bit (`bits`, `word`).  The proof is a simulation (`Agrees`), with a separate invariant
(`Owns`) for what is mapped, which holds for all options.  The calls do what their manuals say (`Map.Honest`) and grant what is asked for while nothing else is mapped (`Grants`); `memtool_prefix` does without the latter.

Findings:
* `-l 0` after an operation in a region makes the next operation access the address of the region instead of the offset, because the old mapping is used without the offset (`memtool_length_counterexample`).
* Changing the length after the first operation does not change the mapping; neither is the offset compared with the length (`memtool_range_counterexample`).
* `-S` and `-C` with the number of a bit that the object does not have are not refused: for a byte or a halfword and a number below 31 they store the object without setting or clearing such a bit (`-S` still clears the bits of the mask), and otherwise the shift is undefined (`memtool_bit_counterexample`).
* Without `-1`, `-2`, `-4` or `-8` an operation does nothing, with a status of zero (`memtool_size_counterexample`).
* `-t` and `-f` test the last number of any option, so that the two commands that are called equivalent at the top of the file are not so in general when conditions are added (`memtool_styles_counterexample`).
* Options that are not recognised print the menu, and the program goes on, with a status of zero; `-I` and `-i` are recognised but always an error.

### C135 to C137: the tool that passes datagrams over a serial line (`Verif/Conestoga*.lean`, `Verif/FramerStream*.lean`)

The model is the work loop of `bin/conestoga.c` over the model of the framer.  `FramerStream.lean` adds what a call of `diminuto_framer_reader` does with a buffered stream: it takes octets from the buffer of the stream, which one `read(2)` fills if it
is empty, until a frame is complete or the buffer is empty.  The events are what the multiplexer reports, with the octets that arrive in between; the line and the network are arbitrary functions of what has been seen so far.  The framer is driven by both directions,
which share only the number of the last frame that was written (`digest_generated`).  The invariant (`Inv`) says that the framer has digested what has arrived except for what is in the buffer and on the line, and has completed one frame for each datagram (or
pair of datagrams, for a client) that was sent.  That the completed frames are valid comes from C09 (`framer_delivers_only_valid_now`).  The specification is `IsFrame`, and lists of what has been seen (`received`, `written`, `sent`).

Findings:
* The length that is given to `sendto(2)` is the result of `diminuto_framer_reader`, which is the number of octets of the frame on the line and not of what it carries (`framertool.c` uses `diminuto_framer_getlength`): every datagram is longer by eleven octets or more, a
  NUL and then old contents of the heap, which are disclosed to the peer (`conestoga_sound_partial`, `conestoga_length_counterexample`).
* If the frame is longer on the line than the buffer, which takes no more than a payload within eleven octets of the size or one with octets that are escaped, memory beyond the buffer is read (`conestoga_overrun_counterexample`, for all such frames).
* The `break` after the case of the client is missing: a client sends each datagram also to the sender of the last datagram (`conestoga_client_twice_counterexample`); and stops after the first frame if there is none
  (`conestoga_first_counterexample`), because there is no destination without a port.  A server also stops if a frame arrives before any datagram.
* An empty datagram, which is legal, and which anybody can send to the socket, stops the tool (`conestoga_empty_counterexample`).
* Two frames that arrive together: the second stays in the buffer of the stream, of which the multiplexer knows nothing, until more arrives on the line (`conestoga_stall_counterexample`).
* With `-D` the same stream is used for both directions; output that follows input without a call that positions the stream is not defined by the standard (`conestoga_shared_counterexample`).
* By reading: `duplicated` is not assigned if frames are missing, so the two messages depend on an old value; and they are about logging only.

### C138 to C140: the tool that passes lines of text over a serial line (`Verif/Framertool*.lean`)

The model is the work loop of `bin/framertool.c` over the models of the framer and of its reader with a buffered stream (`FramerStream.lean`).  The events are what is typed, what arrives, and the turns of the loop, each with the descriptors that are ready, in either order.
The device and the standard output are arbitrary functions of what has been seen so far, which may fail after any number of octets.  There are two invariants: `Inp` is about what has been typed (whole lines, as many frames, and the beginning of a line in the buffer), and `Dev`
is about what has arrived (the framer has digested it except for what is in the buffer and on the line; or it has completed a frame that the output has refused, and stays there).  The specification is `IsFrame`, and lists of what an observer has seen.

Findings:
* When the write to the standard output or the flush of it fails the framer is not reset, and stays in its final state; the loop goes on because the input is open.  Each octet that arrives from then on makes the reader return the number of octets again, and the tool
  writes the same frame again (`framertool_repeat_counterexample`, for any octets).
* What follows the last newline of the input is never written (`framertool_unterminated_counterexample`).  A line that is too long is cut (`framertool_cut_counterexample`).
* `-B` takes any size; a line of 65535 octets or more then is more than a frame can carry, `diminuto_framer_writer` refuses it, and this is reported as the end of the device (`framertool_big_counterexample`).
* Two frames that arrive together: the second stays in the buffer of the stream until more arrives (`framertool_stall_counterexample`).
* The device is opened once, for reading and writing with one stream: output follows input (`framertool_shared_counterexample`).
* By reading: `fgetc(3)` that is interrupted by a signal is taken for the end of the input; at the end of the input the tool does not end until the output fails or the device does; `duplicated` is not assigned if frames are missing.

### C141 to C143: the tool that manipulates pins (`Verif/Pintool*.lean`)

The model is `bin/pintool.c` as a whole, from `main` to the exit code; the options come with their arguments, as from `getopt(3)`.  The functions of the Pin feature (modelled for themselves in `Pin.lean`), the multiplexer, the delay and the shell are arbitrary functions of a state, so that every
one of them may fail at any time.  What is seen from outside is a log.  The endless loops of the monitors are followed for an arbitrary number of turns, after which the outcome is that the tool is busy.

C141 is an invariant between the log and the variables (`Inv`), with the specification `Concerns`, which looks only at the log: it tells which stream is open and for which pin.  C142 is a simulation: `gpio` is a machine on which everything works, in which a stream can be read or written but not
both, and `meaning` is an interpreter of commands that knows nothing of streams.  C143 compares what is printed and run with the samples in the log: `debounced` is the specification of C19 applied to each beginning of the samples, and `reported` keeps the changes.

Findings:
* `-s`, `-c` and `-w` open the pin with `"w"`, the others with `"r"`, and all keep a stream that is there.  So a pin cannot be written and then read: `pintool -p 3 -s -r` fails with the exit code 2, and `pintool -p 3 -r -s` does not set it (`pintool_values_counterexample`).
* `-B` ignores a failure, `-N`, `-R` and `-F` do not (`pintool_edge_counterexample`).
* The number of the pin is cut to an `int`: 4294967300 is 4 (`pintool_pin_counterexample`).  An empty argument is accepted as zero.
* If the stream cannot be closed by `-p` it is closed again at the end (`pintool_defined_counterexample`).
* The product for `-m` overflows for 9223372037 microseconds and more, which is not defined for `int64_t`; those for `-u` and `-b` wrap from 18446744074 microseconds on (`pintool_delay_counterexample`).
* The text for the shell is cut to 1023 characters and run (`pintool_command_counterexample`).
* Options that `getopt(3)` refuses only print the menu, and the exit code is not affected (`pintool_ignored`); `-v` is in the list of options but has no case, and is an error.
* By reading: `-h` and `-l` set the pin but not the state that `-t` and `-f` test; an interrupted wait ends a monitor.

### C144 to C146: the tool that manipulates lines (`Verif/Linetool*.lean`)

The model is `bin/linetool.c` as a whole, from `main` to the exit code; the options come with their arguments, as from `getopt(3)`.  The functions of the Line feature, the multiplexer, the delay, the shell and `fflush(3)` are arbitrary functions of a state, so that every one of them may fail at any time,
and the reader of the output may go at any time.  `SIGPIPE` has three parts in the state: whether it has been counted by its handler, whether it is pending, and whether it is blocked.  What is seen from outside is a log.  The endless loops of the monitors are followed for an arbitrary number of turns.

C144 is an invariant between the log and the variables (`Inv`); the specification `Orderly` looks only at the log, and `Asked` only at the list of options: for each setting, `latest` finds the last option with a say in it.  C145 is a simulation between `gpio`, a machine with descriptors on which everything works, which
refuses what a driver refuses, and `meaning`, an interpreter of commands that knows nothing of descriptors or flags.  C146 compares what is printed and run with the samples and edges in the log (`reported` and `debounced`, shared with C143), and `after` is what is done once a flush has found that the reader has gone.

Findings:
* The help says that `-D`, `-P` and `-p` close the line.  They do not: `linetool -D x -p 5 -o -x -p 6 -s` sets line 5, and the command of `-X` gets line 6 as its argument for edges of line 5 (`linetool_line_counterexample`).
* `-R` and `-F`, and `-i` and `-o`, add up, although each is said to configure; `-i -o` is refused by the driver (`linetool_flags_counterexample`).
* If the line cannot be closed at the end the exit code is zero nevertheless; if it cannot be closed by `-e` or `-n` it is closed a second time at the end (`linetool_success_counterexample`).
* A comment says that `-m 0` polls; the time is not changed by it, and remains −2, or that of a `-m` before (`linetool_timeout_counterexample`).
* `-m` blocks `SIGPIPE` and does not unblock it: at the end the mask from before is passed to `pthread_sigmask(3)` with `SIG_BLOCK`, which adds it.  A `-b` after it never ends when the reader has gone (`linetool_pipe_counterexample`).
* `diminuto_pipe_check` clears the count, so that after a monitor has ended because of it the loop over the options does not know, and goes on with the next, which may be a write (`linetool_pipe_counterexample`).
* The text for the shell is cut to 1023 characters and run (`linetool_command_counterexample`).
* The products for `-u`, `-b` and `-m` overflow from 9223372036854776 microseconds on, which is not defined (`linetool_delay_counterexample`).
* An empty argument of `-p`, `-w`, `-u`, `-b`, `-m` or `-M` is accepted as zero (`linetool_values_counterexample`).
* By reading: `-r` prints without a flush; `-?` does not affect the exit code; `-v` is in the list of options but has no case.

### C147 to C149: the tool for serial ports (`Verif/Serialtool*.lean`)

The model is `bin/serialtool.c` from `main` to the exit code; the options come with their arguments, as from `getopt(3)`.  The functions of the Serial feature are those of C110 and C111 over an arbitrary system; `open(2)`, `fcntl(2)`, the streams, the multiplexer, `read(2)` and `write(2)` are arbitrary functions of a state, of
which the signals are a part.  What `diminuto_contract` aborts is an outcome of its own.  What is done is a log, and `Plays` says that the log is true: each of its entries is a call with this result in the state that the entry before has left.  What is printed on the standard error and the bandwidths are left out.

`Asked` reads each setting from the list of options alone (`latest`) and determines the configuration.  C147 composes the theorems on `diminuto_serial_set` and `diminuto_serial_raw`.  For C148 the specifications `Echo` and `Test` describe the logs by induction; the pattern is given by a formula.  For C149 `Copies` describes all that may be
in a log, `Quits` how it may end, and `Fails` how it may abort; `incoming` and `outgoing` are the bytes that went in and out.

Findings:
* `diminuto_serial_raw` is called after `diminuto_serial_set`, and sets eight data bits, no parity, and `CLOCAL`, and clears `IXON`: `-5`, `-6`, `-7`, `-e`, `-o`, `-m`, and the modem control of `-c` have no effect, and `-s` only half of it, while the log tells the format that was asked for (`serialtool_raw_counterexample`, for every configuration; `serialtool_port_counterexample`).
* With `-i` the tool never exits normally: at the end it unregisters the standard input, which has not been registered, and the contract aborts the program (`serialtool_noinput_counterexample`).
* `-F` and `-B` always abort with a device that is not a terminal, although the tool makes a point of permitting such devices without `-T` (`serialtool_stream_counterexample`).
* The exit code of the loop-back test is zero whether it has failed or not (`serialtool_exit_counterexample`).
* `SIGHUP` asks for a report in the loop-back modes, but ends the interactive mode, since `diminuto_mux_wait` is interrupted by it; with `-N` or `-O` a write that is not complete aborts the program and loses data (`serialtool_interrupted_counterexample`).
* `-b fast` sets the rate to zero, which hangs up, and `-b 4294976896` sets it to 9600 (`serialtool_rate_counterexample`); `-I 0` and `-I x` abort (`serialtool_maximum_counterexample`).
* `-N -B` tests the loop back although `-N` is said to disable `-B`, and `-c` does not forbid it (`serialtool_modes_counterexample`).
* Characters that `fputc(3)` could not send are counted (`serialtool_count_counterexample`).
* By reading: a comment says that loop backward is the default, but the interactive mode is; `-v` prints the value of `EOF` as a character; `debug` in the interactive mode uses the counter of characters.

### C150 to C152: datagrams and the names of hosts (`Verif/Datagram*.lean`)

`recvfrom(2)`, `sendto(2)`, `getsockname(2)` and `getpeername(2)` are arbitrary functions of a state.  A socket address is made of the bytes that the system has, and the byte order of the host is an argument, as in C75 to C77, so that two hosts of different kinds can talk to each other: what one of them has stored may be sent by the
other.  A pointer is what it points to, or NULL.  The specification has the bytes of a socket address as numbers in the order of the network (`Is4`, `Is6`, `Isl`), and these determine a socket address.  The flow information of IPv6 is left out.  `inet_aton(3)`, `gethostbyname(3)` and `getaddrinfo(3)` are arguments; what is asked for and
freed is a log.

Findings:
* A datagram may be empty, and `recvfrom(2)` returns zero then, which the code takes for an orderly shut-down: the sender is not stored, and a server that answers sends to whoever has sent the datagram before, or to an address that has not been initialised (`datagram_empty_counterexample`, `datagram_stale_counterexample`).
* The scope of a link-local IPv6 address is dropped when a datagram is received and is zero when one is sent, so that a link-local sender cannot be answered (`datagram_scope_counterexample`).
* The result of `diminuto_ipcl_identify` is ignored: a datagram from a local socket that has no name leaves the path of the sender before (`datagram_unnamed_counterexample`).
* A destination path of more than 108 characters is cut without an error and the datagram goes to another socket (`datagram_long_counterexample`); a sender whose path has 108 characters makes `strncpy(3)` read beyond the socket address (`datagram_full_counterexample`).
* `diminuto_ipc4_address` does not check that the list of addresses is not empty, as `diminuto_ipc4_addresses` does (`resolve4_counterexample`); `diminuto_ipc6_address` does not skip entries of other families, as `diminuto_ipc6_addresses` does (`resolve6_counterexample`).
* By reading: the memory of `diminuto_ipc4_addresses` and `diminuto_ipc6_addresses` is not checked; the functions that tell the far end succeed with zeros for a socket of another family.

### C153 and C154: the buffered tool that shapes traffic (`Verif/Stdio.lean`, `Verif/Shaperbuffered*.lean`)

`Verif/Stdio.lean` has the functions of the C library that read: a stream is what is still to come, a byte or a failure each, with the two indicators; `fread(3)` and `fgets(3)` gather bytes until the buffer is full, a line ends, the input ends or a reading fails.  The tool is modelled in its three modes, by bytes (`-C`), by blocks and by lines (`-L`), with the shaper of
C30 and the rates of C129; the writing accepts a number of bytes or fails, as the world has it, and whether the last buffer can be written is part of the world too.

Findings:
* By lines, what follows a zero byte is lost, since the length is taken by `strnlen(3)`, and the status is zero (`shaperbuffered_data_counterexample`); if the line begins with it the tool ends with status 3 (`shaperbuffered_status_counterexample`).
* The standard output is not flushed with a check before the exit (`shaperbuffered_delivery_counterexample`).
* As for C129, a sustained rate above the peak rate is only refused if there is a maximum burst size; otherwise the peak rate is forgotten (`shaperbuffered_peak_counterexample`).

### C155: the tool that logs (`Verif/Logtool*.lean`)

The options are those that `getopt(3)` hands over, with the numbers converted; the log mask is an argument.  The specification of what is logged of the standard input is an inductive relation that splits bytes into pieces, which is proved to determine them, and another one of lines.

Findings:
* Without a level the mask is that of six levels but the priority is that of a notice: with a log mask that wants emergencies only, notices are logged (`logtool_level_counterexample`).
* If the arguments are masked, or all of them are empty, the tool reads the standard input, and so hangs in a script with a terminal (`logtool_input_counterexample`).
* `-B 1` makes the tool loop forever, logging empty messages; `-B 0` and sizes from 2 to the power of 31 make it read nothing (`logtool_lines_counterexample`, `logtool_failure_counterexample`).
* A failure of the reading loses the part of the line before it, and the status is zero (`logtool_failure_counterexample`).

### C156 to C158: the tool that measures (`Verif/Metertool*.lean`)

The kernel on both sides is that of C46 (`Verif/Fd.lean`), and the meter is that of C69, whose theorem is used.  Signals come either while the reading waits, and then it fails, or otherwise; the program only looks whether they have been counted.  The state has the times and sizes of the blocks, which the program does not keep, so that a theorem can speak of the peak rate.

Findings:
* The loop checks that the writing returns more than zero but not that it returns all of the block: after a partial write that is followed by a failure, for example because of a signal, the rest of the block is dropped, the tool goes on with the next block and may exit with zero (`metertool_data_counterexample`); the meter has counted it (`metertool_report_counterexample`).
* A signal that arrives while the tool waits for input makes the reading fail with `EINTR`, and the loop continues without looking at the signals: the tool goes on waiting, and ends, or reports for a hangup, only after another block (`metertool_signal_counterexample`).
* By reading: a signal that interrupts a writing before anything has been written ends the tool with status 3, although the signal is handled.
### Local time and the tools that tell the time (C159–C161), `Zone*.lean`

`diminuto_time_generic`, `diminuto_time_timezone`, `diminuto_time_daylightsaving` and `diminuto_time_juliet` of
`src/diminuto_time.c`, and the tools `zulu`, `juliet`, `epochtime` and `elapsedtime`, on top of the model of the time. A zone is
what the C library knows about it: the variables `timezone` and `daylight` after `tzset(3)`, and `localtime_r(3)` as an arbitrary
function from seconds. Conversions of the tools to unsigned ticks and to `int` are those of bit vectors. The lock of the environment is
not part of the model, nor is `strtoll(3)`, of which the result is an argument.

* C159: `zone_local_partial` for every zone with one standard time and an hour more in the summer (`Regular`), with the calendar of the
  model of the time as an example of one. `zone_local_counterexample` has three findings:
  the daylight saving time is always 3600 seconds, but half an hour on Lord Howe Island; the time zone is that of today, but
  London had an hour more from 1968 to 1971 without its being a daylight saving time; and before the Epoch the daylight saving time is that of
  the second rounded towards zero, but the local time that of the second rounded down.
* C160: findings: `ticks` and `offset` are unsigned in `juliet.c` and `ticks` in `zulu.c`, so that the sign is always a plus sign (Denver, in winter,
  is printed as `+07:00`), and that the clock could not be read is never noticed: the absolute value of the smallest number is computed then, which
  is undefined. What is printed in the place of the minutes are the seconds that remain of the offset (India is printed as `+05:1800`).
  `juliettool_prints` says what is printed for every regular zone, `juliettool_partial` when that is the offset.
* C161: `ticks2units` divides by the whole number of ticks in a unit, so that the result is too large if there is a remainder
  (`unitstool_counterexample`: by four percent for sixtieths of a microsecond). A clock that cannot be read is compared with zero,
  but the error is another number, which is printed as a time with status zero.
### Changing the duty cycle of a modulator that runs (C162), `Modset*.lean`

`diminuto_modulator_set` with its wait, the callback, and starting and stopping, as a transition system on top of the model of C32, with
any number of threads and with wake-ups without a signal. Firings do not overlap, and the mutex and the condition do not fail. A stop is one step
(what it does itself is the subject of the properties of the timer).

* `modset_told` and `modset_effect`: in every execution a return is preceded by the request and by a taking over in between, which
  took what had been asked for last, and that is in effect on return. The proof is by an invariant about the log of what has happened.
* `modset_returns_partial`: 256 firings are enough.
* Findings: `modset_stop_counterexample`: the loop waits for the callback only, so that a stop by another thread, or because the function
  of the application has returned zero or failed, leaves the caller waiting for ever. `modset_two_counterexample`: the condition is signalled and not
  broadcast, so that of two callers one is not woken, although its duty cycle is in effect. `modset_cycle_counterexample`: the header promises
  that the current cycle of 255 firings is completed before, but the counts are replaced at every change of the output.
### What internettool works with (C163), `Internettool*.lean`

The options, the resolution of the endpoints, addresses and ports in the order of the code, and what is opened then. The resolver
functions (endpoints, addresses, services, interfaces) are arbitrary functions of the text. `latest` of the specification looks only at the list of options.

Findings:

* `internettool_far_port_counterexample`: the service of `-P` is always looked up for "tcp" (`internettool.c:551`). A service
  that there is only for UDP comes to port zero, and a port of zero means to provide: the tool that was to consume silently
  becomes a provider. A service that is not known does the same.
* `internettool_near_port_counterexample`: the port of the near endpoint is chosen before the far endpoint changes the protocol.
* `internettool_ping_counterexample`: the list of the interfaces is freed, and with it the name which the pointer of the chosen interface is still
  set to (the names are in the same block, `diminuto_ipc.c:323-325`); a ping with an interface uses it. `internettool_opens_defined`: that is the only case.
* A block size of zero is allowed (see C164 and C165 for what that does).
### Internettool as a provider and as a consumer (C164, C165), `Echo*.lean`

The loops of the tool on top of the models of the functions that read and write (C-properties of `Fd.lean`) and of the functions for datagrams. What is ready is
an arbitrary list per wait; what the kernel has for each descriptor is an arbitrary script of data, ends and failures, and what it takes of a
write is one of room, nothing and failures. That the multiplexer hands out ready descriptors that are registered is assumed here.

The consumer is one model with a parameter for the far end (`Far`), with three instances: a stream, datagrams of IPv4 and of IPv6. The invariant `Inv` is proved once, and its trace is translated into the
traces of the specification (`Streams`, `Packets4`, `Packets6`) for each.

Findings:

* `echo_stream_counterexample`: every failure of one client (a connection that is reset, or closed before it has been answered, a descriptor of 1024 or more) violates a
  contract, and that ends the provider for all clients. `echo_stream_blocks_counterexample`: a client that sends and does not read makes the provider wait for ever in
  `diminuto_ipc_stream_write`.
* `echo_empty_counterexample`: one empty datagram, from anybody, ends the provider of datagrams (`internettool.c:939`, `:963`).
* `echo_scope_counterexample`: the reply to an address that is local to a link has lost its interface.
* `echo_block_counterexample`, `echo_nothing_counterexample`: `-b 0` is accepted, and then a `read` of no bytes is taken for the end.
* `echo_greeting_counterexample`: the consumer counts bytes; those of a greeting are taken for those that come back.
* `echo_stranger_counterexample`: the consumer of datagrams checks the port of the sender but not its address (`:1051-1054`, `:1110-1113`).
* `echo_lost_counterexample`: a lost datagram and the consumer never ends. `echo_closed_counterexample`: a server that closes ends it with a failed contract.
### Mmdrivertool (C166), `Mmdrivertool*.lean`

The tool with the model of the driver (C122, `Driver.lean`) below it. The specification (`Does`, `Fails`, `Run`) has no bytes of a union and no commands, only bits of words in memory
and what the user has said; `Sees` relates both, and is preserved by every option (`option_right`). The order of bytes is a parameter; so are the bytes of the operation
that are not initialised. Delays, messages, and the parsing of the command line are left out; closing a device does not fail.

Findings:

* `mmdrivertool_shift_counterexample`: `-S 64` or `-C 64` shifts by 64 (`mmdrivertool.c:152`, `:208`), which is undefined; `mmdrivertool_defined` proves that there is no other undefined behaviour.
* `mmdrivertool_bit_counterexample`: `-1 1 -S 9` does nothing and succeeds.
* `mmdrivertool_junk_counterexample`: only `value32` is initialised, so that `-8 0 -f` depends on what is on the stack.
* `mmdrivertool_result_counterexample`: after `-c`, `-s` and `-w` the "last result" is the argument, because those commands copy nothing back.
* `mmdrivertool_behind_counterexample`: the comparison in the driver (C122) is with the offset only, so that a whole word behind the registers can be changed by the tool.
* An option that there is not is not an error: `getopt(3)` returns a question mark for it, which is the option for the menu, so that the `default` of the switch is never reached.
### Records as datagrams (C167), `Gram*.lean`

On top of the models of records (C73, `ScatterGather.lean`) and of datagrams (`Datagram.lean`): `sendmsg(2)` is `sendto(2)` of what the vector gathers, and `recvmsg(2)` is `recvfrom(2)` with its
room. The theorems are about every history of calls before; what a record contains (`Contains`) is what a write of it would take.

Findings:

* `gram_failed_counterexample`: `diminuto_scattergather_record_ipc4_datagram_receive` and the one of IPv6 identify the sender even if `recvmsg(2)` has failed (`diminuto_scattergather.c:371`, `:383`), so that the variables are set to
  zero; those of `diminuto_ipc4_datagram_receive` are left as they were. On the other hand an empty datagram has a sender here (`gram_receive4`), and has none there.
* `gram_unsound_counterexample`: without segments, or with more than 1024, the functions that send and receive return zero, which is what they return for an empty datagram.
* A record is not different from its bytes also in that an interrupt or that it would wait is reported in the log here, but not by the functions of `diminuto_ipc4.c` and `diminuto_ipc6.c`.
### The singleton timer (C168), `Itimer*.lean`

A transition system in which a nanosecond passes or `diminuto_timer_setitimer` is called. The specification (`Documented`) says what is seen of an event from the history of events: whether the
signal is sent, from the latest call that took effect and how long ago it was; and what a call returns. The model has the conversions of ticks and the POSIX timer, with what `timer_settime(2)` rejects.

Findings:

* `periodicity_counterexample`: the periodicity is an argument of `diminuto_timer_init_generic` only, which is called once (`diminuto_timer.c:340-346`). After the first call of `diminuto_timer_oneshot`, all those of `diminuto_timer_periodic`
  start a timer that expires once, and the other way round. `setitimer_first_periodicity` says that this is all that is wrong for less than 2^63 ticks.
* `cancel_counterexample`: a call for 2^63 ticks or more fails, since the seconds are negative; but the interval of the object has been set. `diminuto_timer_stop` gives this interval to `timer_settime(2)`, and Linux rejects it even
  if the timer is to be disarmed (POSIX does not ask for that; a parameter of the model). The timer before the failed call goes on, and cannot be cancelled.

### Initializing and finalizing timers and threads (C169), `Making*.lean`

What each call of POSIX returns is arbitrary; the model keeps account of the objects that are there, and of what is undefined.

Findings:

* `timer_init_leak_counterexample`: `diminuto_timer_init_base` destroys nothing when it fails, so that the attributes, and also the mutex and the condition, are left; and `diminuto_timer_fini` cannot be used
  to destroy them, since it deletes the POSIX timer first, which is the one with the identifier zero and may be another one.
* `timer_fini_again_counterexample`: a failed `diminuto_timer_fini` has destroyed part of the objects and set the timer to zeros, so the result, the timer, cannot be used for anything.
* `thread_init_counterexample`: `diminuto_thread_init_base` uses the attributes without `pthread_attr_init(3)`. With the library of GNU, zeros are attributes (without a guard page); `thread_init_partial` is for that.
* `window_counterexample`: twice an interval of 2^63 or more ticks wraps.
### Copies of strings, the report on a pool, and exchanging pools (C170), `Strdup*.lean`

On the state and the specification of C40: what may be read at the pointer is a list of bytes, so that reading beyond it is undefined. A copy is specified as an allocation of one byte more than the
length, after which the buffer contains the string; all later histories go on as after the allocation. The report is defined for all chains of C40. Several pools share one memory.

Finding (`set_held_counterexample`, of which `diminuto_buffer.h` says "wackiness may ensue"): a buffer of eight bytes that is freed after `diminuto_buffer_set` to a pool of 4096 bytes is handed out for a request of 4096 bytes; a
write within the request is then outside of the block. `set_sessions_partial` proves the use in which all buffers are freed, and the pool is emptied, before it is exchanged.
### The options and preparations of conestoga (C171), `Wagon*.lean`

The options come as a list with their arguments (`getopt(3)` is left out); system calls are arbitrary functions. The specification takes, for each setting, the last option that says something about it (`latest`), and lists the stages with
their statuses; numbers are specified by `Sized` of the tool for the Internet. It ends where `Conestoga*.lean` begins, with the configuration that is used there.

Findings: the checks of an endpoint use the role at the time of `-E`, so that `-E 127.0.0.1:99 -s` is accepted, the address being ignored, and with `-s -E :99 -c` the client sends to the unspecified address (`role_after_counterexample`).
`-B 4294976896` is accepted as 9600 (`rate_counterexample`). `-b -1` is accepted as 65527, `-t -1` as more than five hundred years, `-t ''` as zero (`negative_counterexample`); with `-t 10000000000000` a signed product overflows (`timeout_counterexample`).
Without `-E` the device is opened and set before the program exits with five (`missing_counterexample`). `-h` is accepted and ignored.
### The tool that dumps files (C172), `Dumptool*.lean`

A stream is a list of bytes with calls of `read(2)` between them that return nothing or fail; `fread(3)` takes bytes up to sixteen or to such a call. The dump of each piece is that of C54, and the specification is that of the lines of a dump at once. Errors
of the streams that are written are left out: the program ignores them, and exits with zero if the standard output is full.

Findings: the loop goes on after an error if bytes came before it in the same piece; the status is then three, but all later bytes are shown and copied (`dumps_any`). The addresses of lines 2^32 bytes apart are the same (`address_counterexample`).

### Collapsing in place, and the tool (C173), `Collapsetool*.lean`

The machine has one memory, with the positions `ff` and `tt`; the proof is that `tt` is never after `ff`, so that what is read is still as it was, and refines to the function of C15 and C60.

Finding: the tool takes a result whose first byte is nul to be empty, so that `collapse '\0A'` writes nothing and exits with zero (`nul_counterexample`).

### The tool that renames files (C174), `Renametool*.lean`

`renameat2(2)` is modelled from its manual. Finding: a file called `-x` cannot be renamed by this name (`dash_counterexample`).
### The tool that prints in hexadecimal (C175), `Phextool*.lean`

The loop over the options, the loop over the input with the function of C72, and the end of the last line. The reader of the specification is that of C72, and the meaning of escapes is the grammar of C173, which knows nothing of the printing. Errors of the streams are left out; the program ignores them.

Findings: without `-x` a nul is printed as `\0` even before an octal digit, where it means another byte (`octal_counterexample`). Lines add newlines that are not in the input (`lines_counterexample`). Unknown options exit with zero, because `getopt(3)` returns the question mark for them, so that the default of the switch is never reached; `-l ''` and `-l -1` are taken (`length_counterexample`).
### The tool that sleeps (C176), `Elapsedsleep*.lean`

The arguments are read with the model of `strtoll(3)`, and the delay is the function of C93. The clock of the specification is any clock for which a delay that is not interrupted lasts at least as long as asked.

Findings: the program multiplies with 10^9 divided by the units, rounded down, so that 600000001 units of which there are 600000001 in a second last 0.6 seconds (`units_counterexample`); at least half is always waited. The product overflows, which is undefined, from 2^63 ns on (`overflow_counterexample`). An empty delay is taken as zero, an empty number of units is refused (`empty_counterexample`). A signal ends the sleep early and the program still exits with zero.

### The tool for a pin (C177), `Gpiotool*.lean`

The program over the model of the functions for pins, with the kernel of their specification.

Findings: the pin is converted from `unsigned long` to `int`, so that pin 4294967299 drives pin 3 (`narrow_counterexample`). If the files of the pin come too late, the program exits with one and the pin stays exported (`late_counterexample`), because `diminuto_pin_unused` does nothing without a stream. With more than two arguments nothing is done and no usage is printed. Without arguments an indeterminate `pin` is passed to `diminuto_pin_unused`, which ignores it since there is no stream.

### The sizes of pages and of lines (C178), `Memorysize*.lean`

The two functions, with the explicit sizes of the compilation as optional numbers. The specification is a list of sources with their characters, and the first that has a size greater than zero.

Findings: the method of the second file is computed as `'n' + 1`, which is `o`, although the enumeration says `l` (`method_counterexample`). The stream of a file in which there is no number is never closed (`leak_counterexample`). If a file cannot be closed after a number has been read, the number is used and the method is unknown (`unknown_counterexample`).
### Aborting a frame (C179), `FramerAbort*.lean`

The function that sends an abort, with `fwrite(3)` that may take fewer octets and `fflush(3)` that may fail, and the model of reading of C57. The specification is the relation between a stream and the payloads that repeated calls return; frames are those of C08.

Finding: an abort that fails after its first octet leaves an escape in the stream, after which the next frame is lost; a second abort repairs it (`abort_counterexample`).
### Registering signals with the multiplexer (C180), `Muxsignal*.lean`

The two functions over a mask, with the three functions of the C library on sets of signals, which refuse numbers outside of 1 to 64, and of which those that change a set also refuse 32 and 33. The specification is an inductive relation: a signal is blocked as the last call of it says.

Finding: the results of `sigaddset(3)` and `sigdelset(3)` are tested, but if they fail the result is still that of `sigismember(3)`: registering such a signal returns zero, unregistering it one; neither is an error (`kept_counterexample`).

### The questions that can be asked of a framer (C181), `FramerGet*.lean`

The inline functions of the header over the model of C08. The claims about restarts are of a receiver that has been initialized and has received any number of consecutive frames, and of a frame whose number is the next, or zero because the far end was restarted, or any because the near end was.

Findings: after the very first frame `diminuto_framer_didrollover` is true, because the initial number is 65535. If frame 65535 is lost a restart of the far end is reported, and if frame 0 is lost after frame 65535 one of the near end (`rollover_counterexample`). The header calls the latter two likely only.
### The questions that can be asked of throttles and shapers (C182), `ThrottleGet*.lean`

The functions that ask for the state and for transitions, over the model of C28. The claim about alarms is in terms of what the throttle itself said after every commit; no request has to precede a commit.

Finding: the transitions of a shaper are disjunctions, which a comment in the header says, so that it says that it has just become empty while it is not (`diminuto_shaper_isempty` is a conjunction), that the alarm has just been cleared while it is alarmed, and that it has just become full or alarmed when it was so before (`shaper_counterexample`). The comment of `diminuto_shaper_emptied` says "filled".
### Mailboxes (C183), `ListMail*.lean`

The four functions for mailboxes and the questions about membership, over the model and the refinement of C20. The specification is a function from mailboxes to sequences of messages; the theorem follows the pointers of the heap.

Finding: a message that is sent, or enqueued, to the mailbox of which it is the last is inserted after itself, which only removes it; it is lost from the mailbox (`resend_counterexample`). Anywhere else in the mailbox it moves to the end as it should.

### C184: the score of the cycles of a modulator (`Flicker.lean`)

`diminuto_modulator_flicker` computes in `double`.  The model has non-negative binary64 numbers (a natural number over a power of two) and rounds the exact result of each operation
to nearest, ties to even; `flicker_rounding` says that the rounding function is what it should be.  `flicker_exact` is that the result is the floor of 100 max(on, off) / 255 for all 65025 pairs of
positive counts: the accumulated relative error is below 16 / 2^53 (`score_close`), which cannot matter if the percentage is not an integer; it is an integer only if the greater count is
a multiple of 51, and those 765 pairs are computed by the kernel.

Finding: the comment in the header says that it is better for the counts to be close in value.  The score does not depend on that: (|off - on| + |off + on|) / 2 is the greater
of the two (`flicker_close_counterexample`).

### C185: the listing of the walker tool (`Listing.lean`)

The tool `fun/walker.c` is modelled over the model of `diminuto_fs_walk` (`Walker.lean`): its callback appends a line to the standard output.  `listing_exit_partial` is about any system calls;
the codes come from a mutual induction over the walk (`awalker_range`).  `listing_readable_partial` is about a file system that does not change: the specification is a reader of listings (`lines`, `parse`, `paths`)
that knows nothing of the tool; the proof is an induction over the visits with the stack of the reader (`paths_w`), and the walk that prints is related to the walk that records the visits by a map of the
states (`awalker_map`).

Finding: the listing is ambiguous. A name may contain newlines and spaces, so that a directory with one file `a\n b` is listed like one with the files `a` and `b` (`listing_newline_counterexample`).

### C186: the brightness computed from the channels of a light sensor (`Lux.lean`)

`avago_apds9301_rawtolux` computes in `double` and calls `pow(3)`.  The model computes with rational numbers and rounds after every operation, and every constant, with any function that has a relative error
of at most 2^-53 and keeps the order (`Rounding`), which IEEE 754 rounding does in the range of the values that occur; the power is any monotone function that is between zero and the identity (`Power`).
The comparisons of the rounded ratio with the rounded limits are exact (`ratio_le`): a ratio of integers of 16 bits that is not a fraction of hundredths differs from it by more than 10^-7.

Finding: the formulas of the data sheet, which the code follows, are not monotone: with a total of 10000 an infrared of 8001 gives a greater brightness than one of 8000 (`lux_order_counterexample`).

### C187: reading a light sensor, and the tool that computes the brightness (`Luxtool.lean`)

`avago_apds9301_sense` is modelled over the model of the I2C feature; the specification is the relation `Reads` of registers that are read one after the other.  The loops of `luxcompute -p` over all pairs are a fold
over a list of 2^32 pairs, which is not evaluated: `luxtool_extremes` follows from `lux_range`, and from the fact that every total less than 65535 gives a strictly smaller value, so that the first
pair with the greatest value is the one in the comment at the end of `avago_apds9301_rawtolux`.

Findings: `luxcompute -d 1` passes the null pointer to `strtoul(3)`, because the number of arguments is tested before the option is taken away (`luxtool_null_counterexample`); values are truncated to 16 bits without
a complaint, so that `65536` is 0 and `-1` is 65535, and an empty argument is 0 (`luxtool_range_counterexample`).

### C188: the driver of an analog to digital converter (`Adc.lean`)

`ti_ads1115_configure`, `ti_ads1115_configure_default`, `ti_ads1115_rawtovolts` and `ti_ads1115_sense` are modelled over the model of the I2C feature, with the same abstract rounding as for C186, which here is in addition
odd.  The specification has the full scale as a table by the three bits of the gain, and a device with a pointer and registers of which the higher byte is transferred first.  The `default` of the switch is
never taken, since all eight values of the three bits have a case: hence the conversion always succeeds.

Trusted: that `double` is rounded to nearest with 53 bits and that no result is subnormal or infinite (the values are between 2^-20 and 2^3 or zero).

Findings: the divisor is 32767, whereas by the data sheet the step is the full scale divided by 32768, so that every voltage is too large by 1/32767 and the least raw value gives a voltage beyond the full scale
(`adc_range_counterexample`), although the header has it as `-FS`; `diminuto_i2c_read` takes a short read as success, and then sensing returns zero with a wrong voltage (`adc_short_counterexample`); the comments say that the
configuration returns zero, but it returns 3, the number of bytes of the last message (`adc_configure`).

### C189: the tool that regulates a voltage (`Regulate.lean`)

The work loop of `adccontroller` is a function of the voltages that are sensed, over the models of the controller (C33, C55) and of the converter (C188).  `regulate_loop` is by induction over the voltages, with the invariant that the
state of the controller is bounded, that the number of outputs is the number of inputs divided by eight, and that the parameters are such that the controller cannot overflow.  Left out: the time, the signals,
the table that is printed, and the overflow of the `int` counters after 2^31 interrupts.

Findings: the input is computed as `(adc + 0.5) * 1000.0`, which adds half a Volt instead of half a millivolt, so that the voltage is regulated to a value about 500 millivolts below the target
(`regulate_input_counterexample`, `regulate_target_counterexample`); `luxcontroller.c:373` has `(lux + 0.5) * 10.0`, which adds half a lux, five units, in the same way (C190).  The comment says that neither argument is allowed to be negative, but `-1` is accepted for
both, and `65537` is the target 1, since the result of `strtoul(3)` is assigned to an `int16_t` before it is compared (`regulate_arguments_counterexample`); a duty cycle of -1 is 255 for the modulator, but -1 for the controller.

### C190: the tool that regulates a brightness (`Illuminate.lean`)

As C189, for `luxcontroller`, over the model of the brightness (C186): that the assertions `0 <= lux <= 2000` hold, and that the conversion to 16 bits fits, follows from `lux_range`.

Findings: as for C189, `(lux + 0.5) * 10.0` adds five tenths of a lux instead of one half of a tenth (`illuminate_input_counterexample`, `illuminate_target_counterexample`), and arguments that are negative or do not fit are accepted
(`illuminate_arguments_counterexample`).

### C191: the tool that measures the voltage for every duty cycle (`Rheostat.lean`)

The four counters of the work loop of `adcrheostat` are, after `k` conversions that are not skipped, a closed form of `k` (`after` in `RheostatLemmas.lean`), from which the lines and the duty cycles follow by induction over the
conversions.  Trusted: that the field `set` of the modulator, which is read without its lock, is what the list of the events says.

Observation: the code for counting up is used only for the first step, from 255 to 254, since the first duty cycle is 255: the sweep is down only.
