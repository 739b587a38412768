# Formal model of troydhanson/shr in Lean 4 — design

Contents: 1 approach, 2 plan per property, 3 what is modelled and what is not, 4 trusted base, 5 assumptions on
the environment, 6 findings, 7 testing the theorems.

## 1. Approach

The C code is modelled function by function as total, computable Lean functions.

* **C semantics** (`Verif/CSem.lean`). A program fragment that runs under the ring's file lock is a
  value of `M σ α := σ → Run σ α`; a run yields a *result* (`ok a s` / `abort s` = failed assert /
  `ub` / `hang`) and a *trace*, the list of all states of the shared memory before each single
  store. So one model gives the atomic semantics (result) and the crash semantics (a process killed
  between two stores leaves one of the traced states). `size_t` values are `Nat`s with explicit
  wrapping operations `wadd`/`wsub`/`wmul` modulo 2^64. Array accesses out of range are `ub`.
* **Ring model** (`Verif/Model/*.lean`): `drop_unread`, `next_msg_info`, `shr_readv`, `shr_writev`,
  cache, flush, stat, appdata, init, open, validate, close.
* **Specification** (`Verif/Spec/*.lean`): an abstract machine on lists of messages (a log of
  accepted messages, a cursor for the first unread one, one cursor per farm reader, a pending list per
  buffered writer). No positions, slots or bytes offsets.
* **Refinement** (`Verif/Proof/*.lean`): a representation relation between the two machines, each API
  call preserves it and returns the same observable output; by induction for every history.
* **Properties** (`Verif/Props/*.lean`): one section per property of `properties.jsonl`, with
  non-vacuity examples beside each theorem.
* **Concurrency**: processes interleaved at single-store granularity with a lock; serialisability
  theorem. Block/wake library: kernel sockets as bounded queues; invariant proofs over all schedules.
* **Parsers and tool code** (`ux.c`, `shr-tool.c`): ordinary functions on lists of bytes.

## 2. Plan per property

| id | what is modelled | how it is proved |
|----|------------------|------------------|
| C01, C02, C09, C10, C11 | shr_writev/shr_readv/next_msg_info on a byte-exact ring | refinement to the list machine, induction over histories |
| C03 | + outcomes of wake/msync as environment inputs | refinement; counterexample where the wake fails after the copy |
| C04, C05, C06, C08 | space check, eldest advance | invariant + refinement |
| C07 | zero-length elements | expected false (assert at shr.c:984): counterexample + partial |
| C12, C13 | drop_unread | refinement: least number of dropped messages; also for flush, close and buffered writers (Spec/Buffered.lean: batches entering a queue) |
| C14, C15, C16 | farm cursors | refinement with sequence numbers, histories < 2^64 messages; retention for every call and every history as batches entering a queue |
| C17 | counters (mod 2^64) | invariant of the list machine + refinement |
| C18 | ub/abort/hang are explicit outcomes | refinement excludes them for every history; that the outcomes mean what they should is stated separately (C18_…_in_bounds) |
| C19, C20, C21, C24 | shr_init/validate_ring/shr_open over a file-system model | direct; overflow counterexample; the offsets are checked against the ABI rule applied to the declarations (`Spec/Layout.lean`) |
| C22, C30 | close/reopen | refinement |
| C23 | validate_flags on all 32-bit words | direct; expected false for both flags: counterexample + partial |
| C25 | shr_appdata | direct + refinement; oversized get is ub: counterexample + partial |
| C26–C29 | cache | refinement |
| C31 | lock + micro-steps | serialisability theorem |
| C32, C33, C53 | traces (crash points); a decidable consistency condition on the control block alone (`Spec/Consistent.lean`) | trace theorems; every consistent control block represents a state of the list machine, so consistent deaths are harmless; counterexamples for C33/C53 |
| C34–C36, C38–C40 | bw.c with kernel sockets | invariants over all schedules; C40 exactly: an invariant that holds without any assumption on the kernel, and a case analysis on the step |
| C37, C44 | decision logic | direct |
| C41, C42 | ux.c parsers | direct, induction on text |
| C43 | size_t accumulation | wrapping arithmetic lemma |
| C45–C51 | shr-tool | induction on streams/strings |
| C52 | init/open interleavings | state machine invariant |
| C54, C57 | shr_open failure paths, shr_close, on the combined ring + block/wake model | direct, counterexample |
| C55, C56 | combined model | invariants over all schedules |
| C58 | slurp_special | induction on the reads |
| C59 | asc2sock/sock2asc | direct |
| C60 | the loop of shr-tool write | induction on the lines |
| C50, C60, C63, C64, C68 | the tool's processes together with their rings, on which other processes make arbitrary calls | invariants over all schedules (`World.Reach`) |
| C61, C62, C65, C67 | option parsing, `create`, `status`, `parse_spec`, path buffers | induction on options and texts |
| C66 | shr_ctl and the epoll set of each handle | invariant over histories of calls and of `shr_ctl` |
| C69, C70 | shr_writev with all inputs and failures; the whole API | case analysis on the executable model, refinement |
| C71, C72 | validate_ring/shr_open on arbitrary bytes; consistent files | exact conditions; every consistent file represents a state of the list machine |
| C73 | the stores inside every call; an opener that is not excluded by the lock loads at different moments | the checked numbers are bounded by constants at every store (Proof/Range.lean) |
| C74 | shr_init store by store | the file at every store is unopenable, or a ring with a beginning of the attributes and app data; C72 |
| C75 | any number of processes inside shr_init, each system call and store a step (`Model/Race.lean`) | invariant over all interleavings: own file, its content by program counter; one process alone = `shr_init` |
| C76 | every call as a computation on a ledger of descriptors, mappings and memory, all outcomes of system calls arbitrary (`Model/Res.lean`) | separation-style triples for every function (what it holds before and after, what is lost), invariant over all histories; false as stated: counterexamples for each way to lose something |
| C77 | the same ledger | the same triples: a release needs what is released |
| C78 | every command of `main` from its options to its exit status; library and system calls by their results, `shr_init` on the file-system model (`Model/Exit.lean`) | case analysis, induction over operands, input and events; C20; false as stated: counterexamples |
| C79 | `case mode_mount` and `suitable_mountpoint` as a list of effects | case analysis, induction over the subdirectories |
| C80 | `subRun` (C46) on arbitrary bytes; specification: `Announces`, `Incomplete`, `SubState` | induction over the reads, strong induction over the buffer for `decode_frames` |
| C81 | `Power`: a ring in use plus the contents its file has had since the last successful `msync` (`attemptSync`, `readvSync`, … say which calls reach `shr_sync` after their last store); specification: `Torn` (each block of the file found has the content of one of these moments), `Confirms` | case analysis of each call (a call stores nothing or syncs), `Torn` of a single image is the image, C71/C72 for the file found; for `C81_accepted` no store touches the fixed bytes (C19) |
| C82 | as C81, with the images during one call (`Sys.points`, C33) | walks over the stores: which blocks change; the unread messages are a function of bytes and index entries that no store of the call changes; counterexamples by mixing two images |
| C83 | the combined model of C34–C36, C55, C56; eager steps: a waiting call takes a wake-up or tries again, a reader reads with a large buffer | a measure in a lexicographic order that every eager step decreases (messages not yet delivered, calls that wait, idle readers, pending datagrams); at rest C34–C36 and the absence of faults (C55) show that nothing is left; induction over the run for what was delivered |
| C84 | the calls of bw.c as sequences of single stores and system calls, with every state in between; the caller may be killed in any of them | each run leaves slots, sockets and queues of other processes alone (a relation that every single effect preserves) and ends as the atomic step of C38–C40; the invariant of C38–C40, weakened to the slots of open waiters, is restored by the exit |
| C85 | deaths inside calls as steps of the system of C34: any consistent state of the ring during the call, and any state of the block/wake handle during the calls the step makes | C84 for the block/wake state and C33 (on farm rings C96 and C97) for the ring, put together into the invariant of C34 and C35; these theorems, and C55, C56 and C83, then hold with deaths inside calls |
| C86 | `shr_read`, `shr_write` of `Model/Api.lean`, which are calls with one buffer | the exact case theorems of C10, C69 specialised |
| C87 | the whole of `main` from the words of the command line to the settings with which the command runs (`Model/Exit.lean`), with glibc's `getopt` | a grammar of command lines and a meaning of each option, stated separately; induction over words and characters |
| C88 | the cache of buffered handles | invariant over the reference queue: its capacity is fixed at the open; C70 |
| C89 | `shr_open`, `shr_init`, `bw_open` with the ledger of `Model/Res.lean`, every failure an environment choice | exact case analysis of every path |
| C90 | `atoi`, `parse_spec`, the conversion to `size_t` (`Model/Main.lean`) | a grammar of numbers stated separately; both directions by induction over the text |
| C91 | `unhex` with glibc's `sscanf("%2x")` (`Model/Tool.lean`) | a grammar of pairs stated separately; induction over the text |
| C92 | two histories of the same ring model that differ in how a batch is divided into calls | eviction and commitment in the reference queue are additive over batches; refinement (C70) carries this to the code |
| C93 | a function on bytes applied to every argument of a history | the reference queue commutes with it, function by function; refinement (C70) |
| C94 | two sequences of writes and flushes through one handle | both put the accepted messages into the reference queue one by one; refinement (C70) |
| C95 | the same model, beyond the histories of C70: a cache that holds an empty message | a simulation between the history and the one with all calls on that handle left out; the assertion at shr.c:984 stops every flush that would copy |
| C96 | farm rings under `Sys.points` (C33): `Spec/FarmLog.lean`, an append-only log with deaths | an invariant weaker than C12's (`FG`: the messages need not be adjacent, for a dead writer leaves holes), kept by every store that does not move the eldest position (`Pc`, a program logic over adjacent states); then by induction over calls and deaths; the limits are shown by runs computed in the kernel |
| C97 | as C96; `Ring.FarmSound` (`Spec/Consistent.lean`) | a ring of C96 that satisfies `FarmSound` represents a state of the queue machine with the log of C96; then the refinement of C01 applies |
| C98 | as C83 | as C83, with a measure that adds up what each reader has yet to read |
| C99 | a run of bw-tool as a function of the answers of the system and of what other processes do between its calls | by cases on the first failure, with the invariant of C38-C40 |
| C100 | counters under any failures | what each call of the list machine puts in and counts, summed by induction on the history; refinement |
| C101 | the messages of a buffered writer under any failures | induction on the story of a history, by cases on what a call does |
| C102 | who is served when several wait | an execution for every n, by induction on n, on the list machine; refinement |
| C103 | number of stores of a call | a cost logic on the model (Costs): bounds for every loop by induction; sizes from the invariant |
| C104 | what mount -q prints | the text as a function of the answers of stat and statfs; the numbers in it are read back |
| C105 | memory safety in the states that deaths leave | a Hoare logic on the model with an invariant about ranges alone (Sane), kept at every store, for every call; induction on the sequence of calls and deaths |
| C106 | termination in the states that deaths leave | the same logic; a decreasing measure for the loop of drop_unread from the fact that some slot describes a non-empty message |
| C107 | the file and shr_open in the states that deaths leave | the ranges of C105 and the stores of C19 on the file, by induction on calls and deaths; the checks of C71 |
| C108 | all calls of Model/Sys from arbitrary states, with deaths at arbitrary stores | every function of the model commutes with replacing the bytes, store by store (Proof/MapB); no invention: the replacement of all other bytes by zero fixes the life of the ring |
| C109 | all calls of Model/Sys from arbitrary states, with deaths at arbitrary stores | a predicate kept by every single store of the call (Proof/Touch), by induction on the program; over time by induction on calls and deaths |

Nothing in the list is unexpressible in a model; runtime aspects not modelled are listed in section 3.

Where a property turned out to be false of the code, the counterexample is a theorem about the model
(`..._counterexample...`), what remains true is proved under the name `..._partial`, and the property is
reported as partial in MANIFEST.json.  The English statements were not weakened afterwards.

## 3. What is modelled

| code | model | not modelled / simplified |
|------|-------|---------------------------|
| src/shr.c `drop_unread`, `next_msg_info`, `shr_readv`, `shr_writev` | `Model/Ring.lean` | the regions of the file are separate arrays (an access outside of its own region is `ub`); waiting is an outcome, a waiting call starts over when woken |
| `shr_write`, `shr_read`, `shr_flush`, `shr_close`, cache, `init_cache`, `validate_flags`, `shr_stat`, `shr_farm_stat`, `shr_appdata`, `shr_get_selectable_fd`, `shr_ctl`, `open_blockwake`'s decisions | `Model/Api.lean` | `malloc` yields zeros; `gettimeofday` is an argument |
| `shr_ctl`, `bw_ctl` and the epoll set in which a call waits | `Model/Ctl.lean` | `epoll_ctl` is a Boolean; readiness of descriptors is an input |
| `shr_init`, `validate_ring`, `shr_open`, `struct shr_ctrl`/`shr_stat` layout | `Model/File.lean` | one file name; `access` fails only if the name does not exist; one creator at a time (several: `Model/Race.lean`); LP64 little-endian layout; hugetlbfs only through the length it gives the file |
| several `shr_init` for the same name at once, and an opener | `Model/Race.lean` | nobody uses the rings meanwhile; the two assertions of `shr_init` are left out (they always hold); a lock on a new file does not wait (no other creator has it open; an opener that holds it only delays) |
| what is acquired and released by all functions of `lib/ux.c`, `lib/bw.c` (without `bw_ctl`, which acquires nothing, and BW_TRACE) and `src/shr.c` | `Model/Res.lean` | only descriptors, mappings and memory; outcomes of system calls, and what the code reads from the ring and /proc, are independent arguments; a call that would abort in an assertion does nothing |
| `lock`/`unlock` | `Model/Conc.lean` (as mutual exclusion between processes) | POSIX record locks belong to processes: threads sharing a ring in one process are outside the model (and are not protected by the library) |
| killed processes | traces of `M` (`CSem.lean`, `Model/Crash.lean`) | — |
| power failures, `shr_sync` | `Model/Power.lean` | blocks (a multiple of 8 bytes, at least 1784) reach the disk whole and independently of each other; the `bw` slots in the control block are not in the file model; the creation itself (shr_init does not sync) must have reached the disk |
| lib/bw.c except `bw_trace`/`bw_dump` | `Model/Bw.lean`, `Model/BwName.lean` | names are numbers in `Model/Bw.lean` (justified by C59); `seqno` unbounded; each function is atomic (they run under the ring lock); `epoll` readiness = a datagram is queued |
| lib/bw.c store by store | `Model/BwKill.lean` | `pid` and `seqno` are stored in one piece; the name passes through arbitrary values; the socket of a `make_socket` that fails after `bind` is left out |
| a process killed inside a call, ring and block/wake together | `Model/WakeKill.lean` | only moments at which the control block is consistent (on a farm ring: in working order, C97, and not directly after a store that moved the position of the eldest message, C96); the ring's state and the block/wake state at the moment of death are chosen independently of each other (more than can happen) |
| the ring and its two block/wake handles together | `Model/Wake.lean` | a buffered write that must flush is made as a flush and a write |
| lib/ux.c | `Model/Ux.lean` | contents of /proc are arguments; `int` counters unbounded |
| util/shr-tool.c: `hexdump`, `unhex`, `decode_frames`, `do_subscriber`, `handle_io` (read, pub, tee), `accept_client`, `handle_client`, `close_client`, `-s`, the write loop | `Model/Tool.lean` | C locale |
| `main`'s options, `create`, `status`, `parse_spec`, `try_delegate`'s and `suitable_mountpoint`'s path buffers | `Model/Main.lean` | `gethostbyname` is a function argument |
| the event loop of read, readhex, write, tee, pub, sub over their rings | `Model/ToolSys.lean` | epoll delivers any event in any order; signals end the tool between two events |
| the commands of `main` from the command line to the exit status, `mount`, `suitable_mountpoint` | `Model/Exit.lean` | `getopt` is glibc's (operands anywhere, no POSIXLY_CORRECT); library and system calls by their results (`shr_init` on the file-system model); names are independent of each other |
| lib/bw-tool.c: `main` after the options, `map`, `await_readiness` | Model/BwTool.lean | a signal is a Boolean, messages and pauses left out |
| `query_ramdisk` | `Model/Query.lean` | the percentage with exact numbers instead of `double` |
| options of bw-tool, perf programs, `usage` | — | not modelled |

Also not modelled: the memory model of CPU and compiler (stores by one process are seen by the others in program
order: the accesses are under the file lock, so only a killed process can expose an order, and there the
program order of the stores is assumed), real time, fairness of the scheduler, running out of sequence numbers
(histories of fewer than 2^64 messages; `Valid` says so) and of `bw` sequence numbers (2^31 registrations).

Every model definition has a comment with the file and lines it models.  `CSem.lean` has the semantics of C used: `size_t`
as numbers modulo 2^64 with explicit wrapping operations, `assert` enabled, memory accesses checked against their
array, traces of single stores (a `memcpy` is a sequence of one-byte stores, words are stored at once).

## 4. Trusted base

* Lean 4.33.0's kernel.  `Classical.choice`, `propext`, `Quot.sound` are the only axioms that any theorem depends on
  (`#print axioms`; most concrete examples depend on fewer).  No axioms of our own, no `native_decide`, no `bv_decide`, no
  unfinished proofs.  `decide +kernel` (evaluation by the kernel) is used for concrete examples, for
  counterexamples and for finite tables (256 bytes × 16 digits; flag words are handled by bit-vector lemmas).
* The model: that the Lean definitions in `Verif/Model` and `Verif/CSem.lean` say what the C code does.  This is by
  inspection (line citations), by the conformance examples in `Verif/Props/Conform.lean`, which replay the repository's
  tests and compare with their `.ans` files, and by the wrong-program experiments (section 7).
* The specifications in `Verif/Spec` and the theorem statements in `Verif/Props`.
* `Mathlib` is used for tactics and list lemmas; these are checked by the kernel too.

## 5. Assumptions on the environment

Stated in the theorems, not as axioms:

* `Valid a ops` (`Proof/Observe.lean`): the sizes given to `shr_init` are in range (`InitArgs.WF`: 0 < size ≤ SSIZE_MAX, app data < 2^64, slots*16 <
  2^64); each call is made as its documentation demands (`Op.WF`: buffers are at most SSIZE_MAX bytes, no message of a vector
  after the first is empty (C07 shows what happens otherwise), a handle is opened for exactly one of reading and
  writing (C23), a `get` buffer of `shr_appdata` is as large as the caller says and not larger than the app data (C25)); and on a
  farm ring, whose sequence numbers are `size_t`, calls × offered messages < 2^64.
* Theorems on schedules (C34–C36, C38–C40, C54–C57) speak about every state in `BSys.Reach` or `AReach`/`CReach` (arbitrary / clean kernel), the tool theorems about
  `World.Reach`, those on `shr_ctl` about `CtlRun` with `EpollFits` (what epoll_wait guarantees).  C55 needs no assumption on the kernel.
* `Env`: the outcomes of system calls are arbitrary inputs unless a theorem says otherwise (`Env.good`: wake-ups and
  msync succeed).
* `BSys.Clean`: the kernel does not give a new socket a name to which a waker still holds a connection, and
  `sendmsg` to an open socket fails only because its queue is full.  Both events are possible in Linux; C40 shows that the
  library then loses a waiter.
* `/proc/net/unix` shows every socket that exists during the whole read (the kernel's seq_file iteration can skip entries
  when the table changes).

## 6. Findings

Each is a theorem unless marked (inspection).

* A write whose wake-up (or msync) fails returns -1 although its messages are in the ring (C03); a buffered writer then
  writes its cache twice (C26); blocked readers are not woken (C34).
* An empty message in a vector after a nonempty one kills the writer inside the critical section (C07).
* `shr_open` accepts SHR_RDONLY|SHR_WRONLY, and the first read then aborts (C18, C23).
* Overflowing sizes in `shr_init` yield a ring whose regions overlap (C19); `validate_ring` accepts files with inconsistent `e`,
  `m`, `mp` or a negative size sum (C24).
* `shr_appdata` copies `*sz` instead of `app_len` bytes (C25), and ignores get+set with `*get == NULL`.
* A process killed inside a read or write can leave counters and ring memory that disagree (C33), a creator killed between
  the magic and the flags leaves a ring that opens with the wrong attributes (C53).
* Racing creators: `shr_init` with SHR_KEEPEXIST can return -1 because of EEXIST, and a creator that fails unlinks the name even if it refers to
  another creator's finished ring (C75).
- Leaks (C76): `get_socket_inodes` leaves its directory open on every error after `opendir`; `bw_open(BW_WAKE)` leaves the sockets connected so far
  open when one cannot be connected; `shr_open` leaves both wake-up handles (and the reader's slot in the ring) behind when the cache cannot be
  allocated or `msync` fails; opening with SHR_RDONLY|SHR_WRONLY, which is accepted, overwrites the reader's handles; `shr_close` leaves them when
  the lock fails.
* A reader ignores a failed wake-up of writers (C35); a failed `bw_force` leaves the descriptor unreadable (C36).
* A reused socket name or a hard send error evicts a live waiter (C40); a single unnamed row in /proc/net/unix makes the
  liveness test indeterminate (C41), so that dead waiters are not recycled and `bw_wake` may fail (C39).
* A failed allocation of the cache or a failed msync at open leaks the waiter slot (C54); so does `shr_close` if it
  cannot lock (C57).
* If the wake-up fails, the messages of that write are in the ring but not counted (C17), and the call that was refused with -1 has left something (C28).
* SHR_APPDATA is never set in the ring's attributes (C20), so `status` does not show it (C61).
* `shr_ctl(SHR_POLLFD)` on a non-blocking buffered writer returns 0 without effect (C66).
* `shr_close` of a handle with cached messages discards them if its flush is refused, also if it was interrupted by a descriptor (C30, C22).
* shr-tool's exit status (C78): read, readhex, pub, sub and tee exit with 255 also when all went well, and with 0 only if `epoll_wait` fails (which
  happens after SIGSTOP and SIGCONT (inspection)); `status -A` exits with 0 although it stored nothing; `mount -q` always exits with 0.
* `mount` goes on if `suitable_mountpoint` fails (C79); `mount -q` of a tmpfs without a size limit computes 0/0 (inspection).
* shr-tool: a short write of a length prefix aborts the publisher (C45); frames over 999996 bytes abort the subscriber and a batch larger
  than the ring ends it (C46); `writehex -1` aborts (C47); `read` repeats the beginning of a message after a short write and spins
  after a failed one (C49); an empty line, a NUL or a line over 998 bytes is not written as such (C60); `tee` loses the message
  whose write fails (C50); the publisher loses the message during whose write the client disconnects (C63); `-H` falls through to
  `-N` (C61); `status` prints counters ≥ 2^63 as negative numbers (C62); port numbers are taken modulo 2^32 (C65).
* Whoever can send to a subscriber can kill it while it holds the lock of its ring, by an empty frame behind a nonempty one; an announcement of a frame
  of more than 1 MiB makes it lose the frames received together with it (C80).
* SHR_SYNC (C81, C82): `msync` is called once, after all stores, so a power failure during a write may leave the index entry without the data (a stale
  message is read again) or, in DROP mode, replace a confirmed message by one that nobody wrote; a read does not report that its
  `msync` failed; `shr_init` and the slot release of `shr_close` are not synced at all.
* (inspection) a signal (EINTR in epoll_wait) makes blocking
  calls return -1; bw-tool tests for -2 where `bw_wait_ul` returns -3; error paths of `bw_open` (wake mode) and
  `get_socket_inodes` leak descriptors; locks do not exclude threads of one process.

## 7. Testing the theorems

`seeded/LOG.jsonl` records wrong programs: one line per edit of a model definition, with the theorems that no longer
proved and what was tightened.  The experiments run in a scratch copy; `theorems_failed` lists the theorems whose proofs
broke directly, `properties_failed` the properties whose theorems depend on these.
