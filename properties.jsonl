{"id": "C01", "title": "FIFO, exactly-once delivery (ring without SHR_DROP)", "statement": "On a ring created without SHR_DROP/SHR_FARM, the concatenation of all messages returned by reads (in lock order, over all readers) followed by the messages still unread equals, byte for byte and in order, the concatenation of all messages of the writes that committed (those that returned a positive count, and those that returned -1 only because waking or msync failed after the commit). Nothing is lost, duplicated, reordered or merged.", "quantifier": "every ring size, slot count, message content/length, number of readers and writers and every finite history of API calls", "why_tests_cant": "Wrap-around positions of data and slots depend on the whole history; a test only visits a few alignments.", "anchors": ["src/shr.c:shr_writev", "src/shr.c:shr_readv", "src/shr.c:next_msg_info"]}
{"id": "C02", "title": "Message integrity across the wrap-around", "statement": "A message that is read has exactly the bytes and the length of the message that was written, also when its bytes straddle the end of the data area, at every position in the ring.", "quantifier": "every ring size, start offset, message length up to the ring size and content", "why_tests_cant": "The straddling split (l1,l2) depends on position and length: quadratically many cases for each ring size.", "anchors": ["src/shr.c:shr_writev:978-998", "src/shr.c:next_msg_info:753-760", "src/shr.c:shr_readv:822-834"]}
{"id": "C03", "title": "Writes are all-or-nothing", "statement": "A write of several messages either returns the total byte count and all of its messages become readable contiguously, or it returns 0/-1/-3 and the readable content of the ring is unchanged.", "quantifier": "every ring state reachable by API calls, every vector of messages, every mode of ring and handle, every outcome of lock/wake/msync", "why_tests_cant": "Failure paths after the copy (wake or msync failure) need injected OS faults at each point.", "anchors": ["src/shr.c:shr_writev"]}
{"id": "C04", "title": "Non-blocking write refuses exactly when space is insufficient", "statement": "On a non-DROP ring a valid non-blocking write returns 0 if and only if unread bytes + new bytes exceed the ring size or unread messages + new messages exceed the maximum message count; otherwise it succeeds. Space occupied by already-read messages always counts as free, wherever it lies.", "quantifier": "every reachable ring state and every valid write", "why_tests_cant": "Fragmentation/off-by-one bugs show only at particular fill levels and positions.", "anchors": ["src/shr.c:shr_writev:925-976"]}
{"id": "C05", "title": "Capacity bounds always hold", "statement": "After any history, unread bytes never exceed the ring's byte size and unread messages never exceed its maximum message count; shr_stat reports exactly the bytes and number of messages that reads would still return.", "quantifier": "every history of calls by any number of handles", "why_tests_cant": "Accounting drift appears after arbitrary interleavings of drops, reads and writes.", "anchors": ["src/shr.c:shr_stat", "src/shr.c:shr_writev", "src/shr.c:shr_readv", "src/shr.c:drop_unread"]}
{"id": "C06", "title": "Invalid writes are rejected without effect", "statement": "A write with no bytes, with more bytes than the ring size, or with more messages than the maximum message count returns -1 and changes nothing (ring, cache, counters).", "quantifier": "every ring state, every handle mode, every argument vector", "why_tests_cant": "The argument space is infinite; the check is interleaved with an accumulation loop over size_t.", "anchors": ["src/shr.c:shr_writev:888-895"]}
{"id": "C07", "title": "Zero-length messages are never stored and never crash the writer", "statement": "A write whose vector contains a zero-length message is rejected with -1 and no effect, for any position of the empty element.", "quantifier": "every vector with an empty element, buffered or not", "why_tests_cant": "Tests use only all-nonempty or all-empty vectors.", "anchors": ["src/shr.c:shr_writev:888-895,984"]}
{"id": "C08", "title": "A drained ring accepts every legal write", "statement": "If no unread messages remain, every write with 1..n bytes in 1..mm nonempty messages succeeds, whatever happened before; a write needing exactly the free space succeeds.", "quantifier": "every reachable state with no unread messages and every legal write", "why_tests_cant": "Positions left behind by earlier traffic are unbounded in number.", "anchors": ["src/shr.c:shr_writev"]}
{"id": "C09", "title": "Batch reads return the longest prefix that fits", "statement": "A vectored read returns the largest number k of oldest unread messages such that k does not exceed the caller's iov count and their total length does not exceed the buffer; the return value is that total, *niov is k, iov[j] delimits message j, consecutive in the buffer, and bytes of the buffer beyond the total are untouched.", "quantifier": "every reachable ring state, buffer size and iov count", "why_tests_cant": "Depends on the combination of all message lengths and both limits.", "anchors": ["src/shr.c:shr_readv"]}
{"id": "C10", "title": "A message that does not fit is left in place", "statement": "If the oldest unread message is longer than the caller's buffer, the read returns -2 with *niov = 0, and the message remains the next to be read; the set of unread messages and the counters are unchanged.", "quantifier": "every reachable ring state and every too-small buffer", "why_tests_cant": "Needs all states with such a head message, including straddling ones.", "anchors": ["src/shr.c:shr_readv:822-857"]}
{"id": "C11", "title": "Non-blocking read returns 0 exactly when nothing is unread", "statement": "A read on a non-blocking handle with nonzero buffer and iov count returns 0 iff there is no unread message for this reader; a blocking one waits exactly then.", "quantifier": "every reachable state, every reader, consuming and farm rings", "why_tests_cant": "Must hold for each history of other readers and writers.", "anchors": ["src/shr.c:shr_readv:797-819", "src/shr.c:next_msg_info"]}
{"id": "C12", "title": "DROP mode: writes always succeed and drop the fewest oldest messages", "statement": "On a SHR_DROP ring every valid write succeeds at once; exactly the smallest number of oldest unread messages needed to satisfy both limits is discarded, the remaining ones keep their order and content, and the new messages follow them.", "quantifier": "every reachable ring state, every valid write", "why_tests_cant": "The number dropped depends on all stored lengths and on both limits at once.", "anchors": ["src/shr.c:drop_unread", "src/shr.c:shr_writev:932-935"]}
{"id": "C13", "title": "DROP mode: reads deliver an ordered subsequence, with exact drop counts", "statement": "On a SHR_DROP ring the messages delivered over all readers form a subsequence, in order and without duplicates, of the messages written; the messages that are neither delivered nor unread are exactly those counted by stat.md (bytes: stat.bd).", "quantifier": "every history of reads and writes", "why_tests_cant": "Losses depend on schedule of readers versus writers.", "anchors": ["src/shr.c:drop_unread", "src/shr.c:shr_readv", "src/shr.c:shr_stat"]}
{"id": "C14", "title": "FARM mode: every reader sees every message, in order, or counts it as missed", "statement": "On a SHR_FARM ring the sequence delivered to one reader is, position by position, the sequence of written messages from where it opened, except for runs of overwritten messages; the number of messages in those runs equals what shr_farm_stat reports (sum over resets).", "quantifier": "every number of readers, every interleaving, every history (up to 2^64 messages)", "why_tests_cant": "Sequence numbers and slot index (mod slot count) interact over unbounded time.", "anchors": ["src/shr.c:next_msg_info:736-751", "src/shr.c:shr_farm_stat"]}
{"id": "C15", "title": "FARM mode: readers are independent", "statement": "A read by one farm reader does not change what any other reader will read, nor what the writer can write: apart from the reader's own cursor only the read counters change.", "quantifier": "every farm ring state, every pair of handles", "why_tests_cant": "Non-interference quantifies over pairs of arbitrary histories.", "anchors": ["src/shr.c:shr_readv:837-842"]}
{"id": "C16", "title": "FARM mode: a new reader starts at the oldest retained message", "statement": "A reader opened on a farm ring first reads the oldest message still present, and the retained messages are always exactly the newest ones: the longest suffix left by the minimal evictions.", "quantifier": "every history before the open", "why_tests_cant": "Depends on the whole eviction history.", "anchors": ["src/shr.c:shr_open:598", "src/shr.c:shr_writev:953-976"]}
{"id": "C17", "title": "Counters conserve messages and bytes", "statement": "Over any statistics period of a consuming ring: written + unread-at-reset = read + dropped + unread-now, for messages and for bytes (mod 2^64); reset zeroes only the counters and does not disturb the queued data.", "quantifier": "every history with resets at any points", "why_tests_cant": "Conservation is a global property of the history.", "anchors": ["src/shr.c:shr_stat", "src/shr.c:drop_unread:665-666", "src/shr.c:shr_readv:847-848", "src/shr.c:shr_writev:1006-1007"]}
{"id": "C18", "title": "Memory safety and assertion freedom of ring operations", "statement": "Starting from a ring created by shr_init without arithmetic overflow, no sequence of API calls with valid arguments makes the library access data, slots, app-data or cache out of bounds, loop forever, or fail an internal assertion.", "quantifier": "every history of API calls with all-nonempty messages and legal argument sizes", "why_tests_cant": "Absence of out-of-bounds for all histories is a universal statement.", "anchors": ["src/shr.c:shr_writev", "src/shr.c:shr_readv", "src/shr.c:drop_unread", "src/shr.c:next_msg_info", "src/shr.c:shr_appdata"]}
{"id": "C19", "title": "Ring file layout: regions are disjoint, aligned and inside the file", "statement": "For every data size, max-message count and app-data size for which shr_init succeeds, control, data, message vector and app-data regions are disjoint, inside the file, and the vector is pointer-aligned.", "quantifier": "every (size, max msgs, app size) triple of size_t values", "why_tests_cant": "2^192 argument triples, with size_t overflow.", "anchors": ["src/shr.c:shr_init:202-300"]}
{"id": "C20", "title": "shr_init argument and existing-file semantics", "statement": "shr_init rejects size 0 and open-flags with -1 and no file-system effect; with KEEPEXIST an existing file is untouched; otherwise an existing file is replaced by a fresh empty ring while processes that had the old ring open keep the old one; SHR_FARM implies SHR_DROP; attribute flags reported later are those given.", "quantifier": "every flag word, size and file-system state", "why_tests_cant": "2^32 flag words times file-system states.", "anchors": ["src/shr.c:shr_init"]}
{"id": "C21", "title": "A fresh ring opens, is empty, and accepts its nominal capacity", "statement": "After a successful (non-overflowing) shr_init, shr_open with one of RDONLY/WRONLY succeeds, the ring reports no unread data, the requested size, and default maximum messages 100 + size/100 when not given.", "quantifier": "every size, max-message count, flag combination", "why_tests_cant": "All sizes.", "anchors": ["src/shr.c:shr_init", "src/shr.c:shr_open", "src/shr.c:validate_ring"]}
{"id": "C22", "title": "Content persists across close and reopen", "statement": "Closing any handles that have no buffered messages pending, and reopening (also when no process has the ring open in between) leaves the unread messages, counters and app-data as they were.", "quantifier": "every reachable state, every subset of handles closed", "why_tests_cant": "Every history before the close.", "anchors": ["src/shr.c:shr_open", "src/shr.c:shr_close"]}
{"id": "C23", "title": "Open mode flags are mutually exclusive", "statement": "shr_open succeeds only if exactly one of SHR_RDONLY and SHR_WRONLY is given and no creation flag is set.", "quantifier": "all 2^32 flag words", "why_tests_cant": "Exhaustive over flag words; XOR of distinct bits hides the error for single-flag tests.", "anchors": ["src/shr.c:validate_flags", "lib/bw.c:bw_open:348"]}
{"id": "C24", "title": "Opening validates the file", "statement": "shr_open returns NULL for a file that is too short, lacks the magic, is shorter than the sizes in its header require, or whose used/offset/slot fields are out of range, and never modifies ring content in that case.", "quantifier": "every file content", "why_tests_cant": "All byte strings as files.", "anchors": ["src/shr.c:validate_ring", "src/shr.c:shr_open"]}
{"id": "C25", "title": "App-data is a register", "statement": "shr_appdata get returns what the last successful set (or shr_init) stored, unaffected by any ring traffic; set succeeds only with exactly the stored size; get-and-set returns the old value and stores the new atomically; errors change nothing.", "quantifier": "every history, all argument shapes including oversized get buffers", "why_tests_cant": "Argument shapes times histories.", "anchors": ["src/shr.c:shr_appdata"]}
{"id": "C26", "title": "Buffered writer preserves order and content", "statement": "For a SHR_BUFFERED writer, the messages it has put in the ring followed by the messages still cached are exactly, in order, the messages of its successful writes; nothing reaches the ring except in that order, in whole messages.", "quantifier": "every history of writes/flushes of a buffered handle interleaved with anything else", "why_tests_cant": "Depends on when the cache overflows, i.e. on all lengths written before.", "anchors": ["src/shr.c:shr_writev:897-923", "src/shr.c:shr_flush", "src/shr.c:init_cache"]}
{"id": "C27", "title": "Cached data can always be flushed to an empty ring", "statement": "The cache never holds more bytes than the ring size nor more messages than its maximum, so a flush to a drained ring always succeeds; a flush returns the total cached bytes and empties the cache, or leaves the cache as it was.", "quantifier": "every ring size and slot count, every history of buffered writes", "why_tests_cant": "Cache sizing is a clamp with three regimes over all sizes.", "anchors": ["src/shr.c:init_cache", "src/shr.c:shr_flush", "src/shr.c:shr_writev:897-923"]}
{"id": "C28", "title": "A refused buffered write leaves nothing behind", "statement": "If a write on a non-blocking buffered handle returns 0 (or -3/-1), none of its messages is or will ever be delivered, and messages cached before remain cached (or were flushed whole).", "quantifier": "every cache and ring state", "why_tests_cant": "Needs each fill level of cache and ring.", "anchors": ["src/shr.c:shr_writev:914-923"]}
{"id": "C29", "title": "Handle mode is unchanged by flushing", "statement": "shr_flush and cache flushes inside shr_writev leave the handle's NONBLOCK and BUFFERED modes as they were, on every outcome (success, would-block, error, -3).", "quantifier": "every handle state and every outcome", "why_tests_cant": "Failure outcomes of lock/bw_open must be injected.", "anchors": ["src/shr.c:shr_flush", "src/shr.c:shr_writev:917-919"]}
{"id": "C30", "title": "Close flushes or discards exactly the cached messages", "statement": "shr_close of a buffered writer first performs a flush; for a non-blocking handle on a full ring exactly the cached messages are discarded and nothing else changes.", "quantifier": "every cache and ring state", "why_tests_cant": "As above.", "anchors": ["src/shr.c:shr_close"]}
{"id": "C31", "title": "Linearizability under the file lock", "statement": "For any number of processes whose library calls are interleaved at the granularity of individual memory stores, the shared ring after any set of completed critical sections equals the result of executing these critical sections one at a time in lock-acquisition order, and each call returns what it would in that order.", "quantifier": "every number of processes and every interleaving of single stores", "why_tests_cant": "Schedules are unbounded.", "anchors": ["src/shr.c:lock", "src/shr.c:unlock", "src/shr.c:shr_writev", "src/shr.c:shr_readv"]}
{"id": "C32", "title": "A killed writer does not corrupt what readers see (no drop needed)", "statement": "If a process is killed at any store of a write that does not need to drop data, a later consuming reader sees either exactly the messages that were unread before, or those followed by all the messages of the write.", "quantifier": "every crash point of every such write in every reachable state", "why_tests_cant": "Crash points between any two stores cannot be hit reliably by tests.", "anchors": ["src/shr.c:shr_writev:953-1002"]}
{"id": "C33", "title": "The ring remains fully usable after a process is killed inside the library", "statement": "After a process is killed at any point inside a library call, later writers and readers on a non-DROP ring still provide FIFO delivery without loss.", "quantifier": "every crash point of every call", "why_tests_cant": "Same as above, followed by arbitrary continuations.", "anchors": ["src/shr.c:shr_writev", "src/shr.c:shr_readv", "src/shr.c:drop_unread"]}
{"id": "C34", "title": "No lost wakeups for readers", "statement": "If a reader is blocked inside a read with nothing pending on its wakeup descriptor, then no message is available to it: every write that makes a message available leaves a wakeup pending for every blocked reader.", "quantifier": "every number of readers and writers, every interleaving of critical sections, waits and wakeups", "why_tests_cant": "Lost-wakeup windows are a matter of schedules.", "anchors": ["src/shr.c:shr_readv:797-819,849-851", "src/shr.c:shr_writev:1004", "lib/bw.c:bw_wake", "lib/bw.c:bw_wait_ul", "lib/bw.c:bw_ready_ul"]}
{"id": "C35", "title": "No lost wakeups for writers", "statement": "If a blocking writer is blocked with nothing pending on its wakeup descriptor, then the ring still lacks the space it needs.", "quantifier": "every number of readers and writers, every interleaving", "why_tests_cant": "As above.", "anchors": ["src/shr.c:shr_writev:943-945", "src/shr.c:shr_readv:849", "lib/bw.c:bw_wake"]}
{"id": "C36", "title": "The selectable descriptor is readable whenever a message is available", "statement": "For an open non-blocking reader, whenever the lock is free and a message is available to it, its selectable descriptor is readable; after a read that left nothing it is not readable, until the next write.", "quantifier": "every history of opens, closes, reads and writes by any processes", "why_tests_cant": "Combination of stale and coalesced wakeups over unbounded histories.", "anchors": ["src/shr.c:open_blockwake:452", "src/shr.c:shr_readv:807,851", "lib/bw.c:bw_force", "lib/bw.c:bw_wake"]}
{"id": "C37", "title": "Only non-blocking readers get a selectable descriptor", "statement": "shr_get_selectable_fd returns the wait descriptor iff the handle was opened RDONLY and NONBLOCK; otherwise -1.", "quantifier": "all flag words", "why_tests_cant": "Exhaustive over flags.", "anchors": ["src/shr.c:shr_get_selectable_fd"]}
{"id": "C38", "title": "Waiter slots: bounded, exclusive, recycled", "statement": "At most 64 waiters hold slots, no two share a slot, opening a 65th fails without disturbing the others, close frees the slot, and a slot of a dead process is reclaimed by the next open that can establish its death.", "quantifier": "every history of open/close/wake/death of any number of processes (the kernel does not give a new socket a name to which a waker is still connected, and a send to an open socket fails only because its queue is full; see C40 for what happens otherwise)", "why_tests_cant": "Unbounded histories and process deaths.", "anchors": ["lib/bw.c:bw_open", "lib/bw.c:bw_reserve", "lib/bw.c:prune_handle", "lib/bw.c:bw_close"]}
{"id": "C39", "title": "A wake reaches every live waiter", "statement": "A successful bw_wake leaves at least one pending datagram on the socket of every waiter that is registered and alive, regardless of how stale the waker's cached connections were.", "quantifier": "every history of opens/closes/deaths since the waker last synchronised (the kernel does not give a new socket a name to which a waker is still connected, and a send to an open socket fails only because its queue is full; see C40 for what happens otherwise)", "why_tests_cant": "Staleness of the cached connection table is history dependent.", "anchors": ["lib/bw.c:bw_sync", "lib/bw.c:open_socket", "lib/bw.c:wake_one", "lib/bw.c:bw_wake"]}
{"id": "C40", "title": "Live waiters are never evicted", "statement": "Pruning, connecting and waking never clear the slot of a process that is alive and has its socket open.", "quantifier": "every state of handle, connections and processes", "why_tests_cant": "Name reuse and pid reuse need rare OS states.", "anchors": ["lib/bw.c:prune_handle", "lib/bw.c:open_socket", "lib/bw.c:wake_one", "lib/ux.c:has_pid_socket"]}
{"id": "C41", "title": "Dead-waiter detection is sound", "statement": "has_pid_socket returns 0 only if the process does not exist or no line of the socket table has both the given name and one of the process's socket inodes; it returns 1 only if such a line exists.", "quantifier": "every table content, inode list and name", "why_tests_cant": "All table texts.", "anchors": ["lib/ux.c:has_pid_socket", "lib/ux.c:has_socket_name", "lib/ux.c:get_col"]}
{"id": "C42", "title": "Column parser", "statement": "get_col(k) returns the k-th maximal run of non-space characters of the first line of the buffer, and fails iff the line has fewer than k runs.", "quantifier": "every buffer and every k >= 1", "why_tests_cant": "All strings.", "anchors": ["lib/ux.c:get_col"]}
{"id": "C43", "title": "Length accounting cannot overflow", "statement": "The size_t accumulation of vector lengths equals the mathematical sum whenever each buffer is a possible C object (at most SSIZE_MAX bytes), so oversize vectors are always detected.", "quantifier": "every vector of lengths", "why_tests_cant": "Wrap-around needs astronomically large inputs.", "anchors": ["src/shr.c:shr_writev:888-895"]}
{"id": "C44", "title": "Interrupting descriptor (-3) has no effect on data", "statement": "A blocking call that returns -3 because a descriptor added by shr_ctl became ready has consumed no message and written none.", "quantifier": "every state in which the call blocks", "why_tests_cant": "Race with writers.", "anchors": ["src/shr.c:shr_ctl", "src/shr.c:shr_readv:814-818", "src/shr.c:shr_writev:944-945", "lib/bw.c:bw_wait_ul", "lib/bw.c:bw_ctl"]}
{"id": "C45", "title": "pub/sub framing round-trip for every segmentation", "statement": "The frames a subscriber hands to its ring are exactly the messages published, in order, for every way TCP may segment the byte stream.", "quantifier": "every message sequence (sizes the ring and buffer admit) and every segmentation", "why_tests_cant": "Segmentations are exponential in the stream length.", "anchors": ["util/shr-tool.c:decode_frames", "util/shr-tool.c:do_subscriber", "util/shr-tool.c:handle_io:704-740"]}
{"id": "C46", "title": "A subscriber survives every frame a publisher can send", "statement": "Any message the publisher can read from its ring (up to 1000000 bytes) can be received by the subscriber.", "quantifier": "every message length up to the publisher's buffer", "why_tests_cant": "Boundary within 4 bytes of the buffer size.", "anchors": ["util/shr-tool.c:do_subscriber:514", "util/shr-tool.c:decode_frames:462"]}
{"id": "C47", "title": "Hex conversion round-trip", "statement": "writehex of the hexadecimal representation of a nonempty byte string writes exactly that byte string; odd-length or empty input is rejected; no input crashes the tool.", "quantifier": "every argument string", "why_tests_cant": "All strings.", "anchors": ["util/shr-tool.c:unhex"]}
{"id": "C48", "title": "hexdump is faithful", "statement": "The hex columns printed by readhex, read back in order, are exactly the bytes of the message, 16 per line, with correct offsets.", "quantifier": "every message", "why_tests_cant": "All lengths and contents.", "anchors": ["util/shr-tool.c:hexdump"]}
{"id": "C49", "title": "shr-tool read prints each message exactly", "statement": "The bytes written to standard output for a message are exactly the message, whatever partial counts write(2) returns.", "quantifier": "every message and every sequence of short writes", "why_tests_cant": "Short writes are scheduling dependent.", "anchors": ["util/shr-tool.c:handle_io:676-702"]}
{"id": "C50", "title": "tee copies every message to both outputs in order", "statement": "Every message read from ring A by tee is appended, unchanged and in order, to rings B and C.", "quantifier": "every history of A and every blocking pattern", "why_tests_cant": "Histories.", "anchors": ["util/shr-tool.c:handle_io:742-756"]}
{"id": "C51", "title": "Size suffixes scale by powers of 1024", "statement": "-s N with suffix k,m,g,t (either case) requests N*1024^{1,2,3,4} bytes; without suffix N.", "quantifier": "every N below overflow and every suffix", "why_tests_cant": "All N.", "anchors": ["util/shr-tool.c:main:979-991"]}
{"id": "C52", "title": "Creation is atomic with respect to concurrent openers", "statement": "An shr_open that runs concurrently with shr_init of the same name either fails or obtains the completely initialised ring.", "quantifier": "every interleaving of init and open steps", "why_tests_cant": "Schedules.", "anchors": ["src/shr.c:shr_init:242-299", "src/shr.c:shr_open:570-596"]}
{"id": "C53", "title": "A creator killed half-way leaves no half-initialised ring that opens", "statement": "If the process is killed at any point inside shr_init, a later shr_open either fails or obtains the ring with all requested attributes and app-data.", "quantifier": "every crash point in shr_init", "why_tests_cant": "Crash points.", "anchors": ["src/shr.c:shr_init:275-290"]}
{"id": "C54", "title": "A failed open leaves no trace", "statement": "If shr_open returns NULL, no waiter slot remains reserved in the ring for the caller.", "quantifier": "every failure point of shr_open", "why_tests_cant": "Fault injection at each allocation/system call.", "anchors": ["src/shr.c:shr_open:609-621", "src/shr.c:init_cache", "src/shr.c:open_blockwake", "lib/bw.c:bw_open:421-430"]}
{"id": "C55", "title": "A waiting call waits on its own open handle; no call aborts", "statement": "A call that waits has open the block/wake handle it waits on (otherwise the library would abort), and no call made by any of the processes, at any time, aborts or faults.", "quantifier": "every schedule of any number of processes, calls, waits and deaths", "why_tests_cant": "Schedules.", "anchors": ["lib/bw.c:bw_wait_ul:561", "src/shr.c:shr_flush:1115-1128", "src/shr.c:open_blockwake"]}
{"id": "C56", "title": "No deadlock between a waiting reader and a waiting writer", "statement": "On a ring without SHR_FARM, whenever a reader and a writer both wait, a wake-up is pending for at least one of them.", "quantifier": "every schedule of any number of processes", "why_tests_cant": "Schedules.", "anchors": ["src/shr.c:shr_readv:797-819", "src/shr.c:shr_writev:925-946", "lib/bw.c:bw_wake", "lib/bw.c:bw_wait_ul"]}
{"id": "C57", "title": "Close releases the waiter slots", "statement": "When shr_close has returned, no waiter slot of the ring is reserved for the closed handle and its sockets are closed.", "quantifier": "every state and every outcome of the system calls", "why_tests_cant": "Fault injection.", "anchors": ["src/shr.c:shr_close:1161-1168", "lib/bw.c:bw_close"]}
{"id": "C58", "title": "Special files are read completely", "statement": "The buffer that the /proc reader returns holds exactly the content of the file, and it does return it unless the file cannot be opened, a read fails or memory runs out.", "quantifier": "every file content and every way read(2) may cut it into pieces", "why_tests_cant": "Short reads are up to the kernel; the buffer doubles at sizes a test must hit exactly.", "anchors": ["lib/ux.c:slurp_special"]}
{"id": "C59", "title": "Socket names survive the trip through a slot", "statement": "The address a waker connects to, computed from the 8 bytes in the slot, is the address the waiter is bound to; two slots hold the same bytes iff the names are the same; reading the field never runs past it.", "quantifier": "every abstract name of at most 6 bytes without NUL (longer names abort the waiter)", "why_tests_cant": "All names.", "anchors": ["lib/bw.c:asc2sock", "lib/bw.c:sock2asc", "lib/bw.c:make_socket", "lib/bw.c:open_socket"]}
{"id": "C60", "title": "shr-tool write turns lines into messages", "statement": "Given lines of at most 998 bytes without NUL, shr-tool write writes exactly these lines (without the newlines), one message per line and in order; if a write fails (an empty line, a line larger than the ring) it stops there, and exactly the lines before it were written.", "quantifier": "every sequence of lines and every outcome of shr_write", "why_tests_cant": "All inputs; the boundary of the line buffer.", "anchors": ["util/shr-tool.c:main:1161-1173"]}
{"id": "C61", "title": "shr-tool create makes the ring that was asked for", "statement": "Whatever options are given and in whatever order, shr-tool create makes a ring with the size of the last -s, the maximum number of messages of the last -N, exactly the modes given by the letters of the -m options, and the content of the file of the last -A as app data; status then shows exactly these attributes. An unknown mode letter is refused.", "quantifier": "every sequence of options and every argument text", "why_tests_cant": "All option sequences and texts.", "anchors": ["util/shr-tool.c:main:955-1010", "util/shr-tool.c:main:1078-1097"]}
{"id": "C62", "title": "shr-tool status shows the state of the ring", "statement": "The lines printed by shr-tool status show the ring's limits, its unread bytes and messages at that time, its counters, its attributes and the size of its app data.", "quantifier": "every history before, and calls of other processes between the two calls that status makes", "why_tests_cant": "All histories and all counter values.", "anchors": ["util/shr-tool.c:main:1098-1150"]}
{"id": "C63", "title": "shr-tool pub sends what it takes, to one client at a time", "statement": "Every message that pub takes from the ring is sent, framed by its length (unless framing is switched off), completely and in order, to the client that is connected at this time; messages are taken only while a client is connected; a second client gets nothing and does not disturb the first.", "quantifier": "every schedule of connections, disconnections, short writes and calls of other processes on the ring", "why_tests_cant": "Schedules, short writes.", "anchors": ["util/shr-tool.c:handle_io:704-740", "util/shr-tool.c:accept_client", "util/shr-tool.c:handle_client", "util/shr-tool.c:close_client"]}
{"id": "C64", "title": "shr-tool read prints exactly the messages that it takes", "statement": "While write(2) takes whole messages, what read/readhex has printed is at any time exactly the list of messages it has taken from the ring, in order; it stops only because its -n limit is reached, the ring is empty (without -b), or a call failed.", "quantifier": "every ring, every history of calls of other processes in between", "why_tests_cant": "Schedules and histories.", "anchors": ["util/shr-tool.c:handle_io:655-702", "util/shr-tool.c:main:1247-1305"]}
{"id": "C65", "title": "Addresses given to pub and sub are understood or refused", "statement": "N stands for port N on all interfaces and host:N for port N at the address of that host, for N from 1 to 65535; any other text is refused.", "quantifier": "every argument text", "why_tests_cant": "All strings.", "anchors": ["util/shr-tool.c:parse_spec:263"]}
{"id": "C66", "title": "shr_ctl(SHR_POLLFD) interrupts waits on that handle, and nothing else does", "statement": "After shr_ctl(s, SHR_POLLFD, fd) returned 0, no call on s stays waiting while fd is ready (it returns -3 or a result); a call returns -3 only if a descriptor that was added to the same handle is ready; other flags return -1 and change nothing; other handles are not affected.", "quantifier": "every history of calls on any number of handles, and every readiness of descriptors", "why_tests_cant": "Histories and schedules.", "anchors": ["src/shr.c:shr_ctl:1194", "lib/bw.c:bw_ctl", "lib/bw.c:bw_wait_ul:556"]}
{"id": "C67", "title": "Path buffers of shr-tool do not overflow", "statement": "The name of a delegate program and the path of the parent of a mount point are composed inside of their buffers or refused, for every length of the parts.", "quantifier": "every path and subcommand", "why_tests_cant": "The boundary lengths.", "anchors": ["util/shr-tool.c:try_delegate:859", "util/shr-tool.c:suitable_mountpoint:318"]}
{"id": "C68", "title": "pub and sub carry messages from ring to ring", "statement": "With shr-tool pub on ring A and sub on ring B, what has arrived in B is at any time a beginning of the messages taken from A for this subscriber, in order and unchanged, and all of them once the subscriber has received all that was sent; the subscriber stops only when the connection ends, a message is too large for it, or its ring refuses a write.", "quantifier": "every segmentation of the stream, every schedule, other processes using both rings", "why_tests_cant": "Schedules, segmentation.", "anchors": ["util/shr-tool.c:handle_io:704-740", "util/shr-tool.c:do_subscriber:501", "util/shr-tool.c:decode_frames:448"]}
{"id": "C69", "title": "What an unbuffered write does, in every case", "statement": "For every vector of messages, on every ring and whatever fails: the write is refused with -1 and without effect iff the vector is empty, starts with an empty message, exceeds the byte size or message count of the ring, or the lock cannot be taken; else, if there is no room and the ring does not drop, it returns 0 (non-blocking) or waits, without effect; else it aborts the process iff a message behind the first is empty; else it drops the fewest possible oldest unread messages, appends the batch, and returns its size if the wake-up and the sync succeeded and -1 if not. Dropped messages are always counted; written ones iff the wake-up succeeded.", "quantifier": "every history, every vector of messages, every failure", "why_tests_cant": "All vectors, all histories, all failures; the abort and the lost count happen only in rare combinations.", "anchors": ["src/shr.c:shr_writev", "src/shr.c:drop_unread"]}
{"id": "C70", "title": "The library is the reference queue", "statement": "Every call of every history returns exactly what the reference queue machine (a list of messages with a drop rule, cursors for farm readers and a list of pending messages for each buffered writer) returns, and the ring always holds exactly that machine's unread and retained messages, counters, app data and attributes.", "quantifier": "every history of calls on any number of handles, with any failures of system calls", "why_tests_cant": "All histories.", "anchors": ["src/shr.c:shr_writev", "src/shr.c:shr_readv", "src/shr.c:shr_flush", "src/shr.c:shr_stat", "src/shr.c:shr_farm_stat", "src/shr.c:shr_appdata", "src/shr.c:shr_open", "src/shr.c:shr_close"]}
{"id": "C71", "title": "Exactly which files and flags shr_open accepts", "statement": "shr_open succeeds iff the flags contain a mode (SHR_RDONLY, SHR_WRONLY or both) and no creation flag; the file exists, is longer than the control block, has the magic, is as long as its header says (a header sum of 2^63 and more passes), has not more unread bytes than data bytes, and write position and read slot in range; and every system call needed succeeds (mlock only for MLOCK rings, malloc only for buffered writers, msync only for SYNC rings).", "quantifier": "every file content, every 32-bit word of flags, every failure", "why_tests_cant": "All file contents.", "anchors": ["src/shr.c:validate_ring", "src/shr.c:shr_open", "src/shr.c:validate_flags", "src/shr.c:init_cache"]}
{"id": "C72", "title": "Any file in working order is a usable ring", "statement": "A file whose control block and message vector are consistent - however it came about - is accepted by shr_open, and every history of calls on it completes without fault and returns exactly what the reference queue with its messages returns; every file that shr_init and any history of calls leave behind is of this kind.", "quantifier": "every file content that is consistent; every history", "why_tests_cant": "All file contents and histories.", "anchors": ["src/shr.c:validate_ring", "src/shr.c:shr_open", "src/shr.c:shr_readv", "src/shr.c:shr_writev"]}
{"id": "C73", "title": "A ring in use can be opened at any moment", "statement": "At every point between two stores of any call on a ring - where its caller may die and so release the lock - the file passes the checks of shr_open, so the open succeeds if its system calls do. The same holds for an opener that the lock does not exclude (an fcntl lock does not exclude threads of the same process), which reads the numbers one after the other while calls are in progress.", "quantifier": "every history, every point inside every call, every interleaving of the opener's loads with the stores", "why_tests_cant": "Crash points and schedules.", "anchors": ["src/shr.c:validate_ring", "src/shr.c:shr_open", "src/shr.c:shr_writev", "src/shr.c:shr_readv", "src/shr.c:drop_unread"]}
{"id": "C74", "title": "Exactly what a killed creator leaves", "statement": "If the process is killed at any point inside shr_init, then whatever a later shr_open obtains is the file that had the name before, or a new empty ring with the requested sizes that can be used in every way; its attributes are those of the requested SYNC, DROP, FARM, MLOCK, in this order, that were stored so far (FARM only together with DROP), and its app data are zeros from some byte on, from the first if not all attributes were stored.", "quantifier": "every combination of arguments, every kill point, every later history", "why_tests_cant": "Crash points.", "anchors": ["src/shr.c:shr_init:275-290", "src/shr.c:validate_ring", "src/shr.c:shr_open"]}
{"id": "C75", "title": "Several creators at the same time", "statement": "While any number of processes are inside shr_init for the same name, some of them killed: no existing file is changed and no two of them write into the same file; one that returns 0 has a complete ring as it asked for in its own file, or used SHR_KEEPEXIST and found the name in use; an opener, which has to get the lock, obtains a file that was there before, the complete ring of a creator that has returned 0, or what a killed creator left (C74), never a mixture or a ring still being made. If no system call fails except through the race and nobody is killed, then when all have returned the name refers to a ring, that of a creator that returned 0 or the old one. (Not promised: with a race, shr_init may return -1 even with SHR_KEEPEXIST, and a creator that fails may remove the ring of another.)", "quantifier": "every number of creators with any arguments, every interleaving of their system calls and stores, every failure and kill point, an opener at any moment", "why_tests_cant": "Schedules and crash points of several processes.", "anchors": ["src/shr.c:shr_init", "src/shr.c:shr_open", "src/shr.c:lock"]}
{"id": "C76", "title": "Nothing leaks", "statement": "A failing shr_open, every shr_init and shr_close release all descriptors, mappings and memory they acquired, so that at any time a process holds what its open handles hold and the application data given to it, and nothing after closing all handles; an open handle never holds more than a fixed number of things, however many calls are made on it.", "quantifier": "every sequence of calls on any number of handles, every pattern of failing system calls inside", "why_tests_cant": "Failure patterns and histories; leaks are not visible in the results of calls.", "anchors": ["src/shr.c:shr_open", "src/shr.c:shr_init", "src/shr.c:shr_close", "src/shr.c:open_blockwake", "lib/bw.c:bw_open", "lib/bw.c:bw_close", "lib/bw.c:bw_sync", "lib/ux.c:get_socket_inodes"]}
{"id": "C77", "title": "Nothing is closed or freed twice or used afterwards", "statement": "Whatever fails inside: no call closes, unmaps or frees anything that the process does not hold at that time, everything an open handle refers to is still held, and no two handles refer to the same descriptor, mapping or memory.", "quantifier": "every sequence of calls on any number of handles, every pattern of failing system calls inside", "why_tests_cant": "Failure patterns and histories; a double close may hit a descriptor of another part of the program.", "anchors": ["src/shr.c:shr_open", "src/shr.c:shr_close", "src/shr.c:shr_flush", "src/shr.c:open_blockwake", "lib/bw.c:bw_open", "lib/bw.c:bw_close", "lib/bw.c:bw_sync", "lib/bw.c:bw_wake", "lib/bw.c:bw_force", "lib/ux.c:has_pid_socket"]}
{"id": "C78", "title": "The exit status of shr-tool says whether the command was carried out", "statement": "shr-tool exits with 0 if and only if the command did what it was asked to do, and with another status otherwise; a create of several rings that fails has made those before the failing one, left no broken ring under the failing name, and not touched those behind it.", "quantifier": "every command with any options and operands, every outcome of the library and system calls inside", "why_tests_cant": "All combinations of commands, inputs and failures.", "anchors": ["util/shr-tool.c:main:908-1320", "util/shr-tool.c:query_ramdisk", "util/shr-tool.c:handle_io"]}
{"id": "C79", "title": "mount does what was asked, in order, and never stacks ramdisks", "statement": "shr-tool mount mounts, then makes the subdirectories in the order given, then sets the number of huge pages; it stops at the first step that fails, with status 255, and exits with 0 if and only if all steps were done. If stat and statfs say that the directory is the mount point of a ramdisk already, it changes nothing.", "quantifier": "every combination of options, directories and outcomes of system calls", "why_tests_cant": "All combinations of failures.", "anchors": ["util/shr-tool.c:main:1015-1076", "util/shr-tool.c:suitable_mountpoint"]}
{"id": "C80", "title": "A subscriber on any stream of bytes", "statement": "Whatever bytes a subscriber receives, from whomever and in whatever pieces: what it has given to shr_writev is at any time exactly the messages (of at most 1 MiB) whose frames are complete among the bytes received, in order, and it keeps nothing but the beginning of an incomplete frame. It ends only if shr_writev refuses a batch, if a frame of more than 1 MiB is announced (the frames received together with this announcement are then not written), or in a failed assertion if 1000000 bytes of a longer frame have arrived. (Not promised: an empty frame is handed on too, and behind a nonempty one it makes shr_writev abort.)", "quantifier": "every stream of bytes, every way it is cut into pieces, every outcome of the writes", "why_tests_cant": "Every byte stream from an untrusted peer.", "anchors": ["util/shr-tool.c:do_subscriber", "util/shr-tool.c:decode_frames", "src/shr.c:shr_writev"]}
{"id": "C81", "title": "On a SYNC ring, what is confirmed survives a power failure", "statement": "When a shr_open, an unbuffered write, a shr_flush, a shr_stat or a shr_appdata on a ring with SHR_SYNC reports success, everything done to the ring so far is on the disk, whatever failed before. If in the calls after it msync and the wake-ups succeed and then the power fails between two calls, the file found is the ring in its last state, with all messages, counters and application data, in working order. A power failure at any moment, even if all calls of msync failed, leaves a file that shr_open accepts, with the sizes, attributes and identification it was created with. (Not promised: a read reports success although its msync failed, and its messages may then be read again.)", "quantifier": "every history of the ring, every moment of the power failure, every choice by the kernel of which modified blocks had reached the disk before it", "why_tests_cant": "Power failures, and the order in which a kernel writes pages, cannot be enumerated.", "anchors": ["src/shr.c:shr_sync", "src/shr.c:shr_writev", "src/shr.c:shr_readv", "src/shr.c:shr_flush", "src/shr.c:shr_stat", "src/shr.c:shr_appdata", "src/shr.c:shr_open"]}
{"id": "C82", "title": "A power failure during a call on a SYNC ring does no more harm than a killed process", "statement": "If the power fails during a call, while everything before the call is on the disk: during a read or a shr_stat, the file found is the ring at a point at which the process could have been killed; during a shr_appdata, each byte of the application data is the old or the new one and nothing else is different; during a write, flush or close that does not drop, the messages unread before are still there unchanged, followed by nothing or by the messages of the batch.", "quantifier": "every history, every call, every moment of the power failure, every choice of which modified blocks had reached the disk", "why_tests_cant": "Power failures, and the order in which a kernel writes pages, cannot be enumerated.", "anchors": ["src/shr.c:shr_sync", "src/shr.c:shr_writev", "src/shr.c:shr_readv", "src/shr.c:shr_stat", "src/shr.c:shr_appdata"]}
{"id": "C83", "title": "Whatever waits goes on, and everything is delivered", "statement": "On a ring that is not a farm: if, from some moment on, the waiting calls take their wake-ups and try again, the readers call shr_readv with buffers as large as the ring (a non-blocking reader whenever its descriptor is readable) and the system calls succeed, then after finitely many steps nothing more happens; at that time the ring is empty and no write, flush or close waits. Each writer that waited has returned success, and the readers together have received exactly the messages unread at the beginning followed by those of the waiting writers, each of these as one block, in the order in which they were written, no message twice. This needs a reader and that no wake-up failed before without a later one succeeding (C34).", "quantifier": "every history before that moment, every interleaving of the steps after it, any number of readers and writers", "why_tests_cant": "Liveness: infinitely many schedules, of any length.", "anchors": ["src/shr.c:shr_readv", "src/shr.c:shr_writev", "src/shr.c:shr_flush", "src/shr.c:shr_close", "lib/bw.c:bw_wait_ul", "lib/bw.c:bw_ready_ul", "lib/bw.c:bw_wake", "lib/bw.c:bw_force"]}
{"id": "C84", "title": "A process killed inside a block/wake call harms nobody else", "statement": "A process may be killed between any two stores or system calls inside any call of the block/wake library, and its lock is released as it is. Every waiter of another process stays open, registered in its slot, with all its pending wake-ups. Afterwards everything holds as if the process had died between two calls: waiters do not share slots, there are at most 64, a wake that reports success reaches every open waiter, and a live waiter is never evicted. Wakers never fail because of what a dead process left (if the system answers their questions), and its slots are used again. (Not promised: a waker killed in the middle of its wake has woken some waiters and not others.)", "quantifier": "every history of calls and deaths, every point inside every call", "why_tests_cant": "Crash points inside calls, combined with every history.", "anchors": ["lib/bw.c:bw_open", "lib/bw.c:bw_close", "lib/bw.c:bw_wake", "lib/bw.c:bw_sync", "lib/bw.c:prune_handle", "lib/bw.c:open_socket", "lib/bw.c:make_socket", "lib/bw.c:bw_reserve", "lib/bw.c:wake_one"]}
{"id": "C85", "title": "A process killed inside a call leaves the others able to wait for and wake each other", "statement": "A process is killed inside any call, or inside one that has been woken, at any moment at which the ring's control block is consistent (C33; on a farm ring: in working order, C97). The handles of other processes, their waiting calls and the wake-ups pending for them are as before; nothing of the victim is left; all calls made afterwards complete. If the victim had put messages into the ring or made room and died before it woke anybody, the next successful write (or read) makes up for it: after that, no reader sleeps that has something to read and no wake-up pending, and no writer that has room. (Not promised: until then a reader may sleep although a message is there.)", "quantifier": "every history of calls, waits, wake-ups and deaths, every call, every such moment inside it", "why_tests_cant": "Crash points inside calls, combined with every schedule.", "anchors": ["src/shr.c:shr_writev", "src/shr.c:shr_readv", "src/shr.c:shr_flush", "src/shr.c:shr_close", "src/shr.c:shr_open", "lib/bw.c:bw_wake", "lib/bw.c:bw_wait_ul", "lib/bw.c:bw_open"]}
{"id": "C86", "title": "shr_read and shr_write, the calls for one message", "statement": "shr_read takes exactly the next message if it fits into the buffer, which then begins with it and is unchanged behind it, and returns its length; it returns -2 and changes nothing if the message does not fit; with nothing to read it returns 0 or waits. shr_write (unbuffered) appends exactly its message and returns its length; it refuses empty or too long messages with -1, and returns 0 or waits without room, changing nothing.", "quantifier": "every history, message and buffer length, every mode of ring and handle", "why_tests_cant": "All histories and lengths.", "anchors": ["src/shr.c:shr_read", "src/shr.c:shr_write"]}
{"id": "C87", "title": "What a shr-tool command line means", "statement": "shr-tool carries out a command exactly if its command line is well formed: a known command, options (several in one word, arguments attached or separate, mixed with the operands, -- ending them) that are known and have good arguments, and operands as the command needs them; and then the command is carried out with the meaning the options have - the last one counts, -t, -s with the suffixes kmgt and %. Every other command line ends with the usage text and status 255, or runs the external delegate.", "quantifier": "every command line", "why_tests_cant": "Infinitely many command lines.", "anchors": ["util/shr-tool.c:main:908-1012", "util/shr-tool.c:usage", "util/shr-tool.c:try_delegate"]}
{"id": "C88", "title": "How much a buffered writer holds back", "statement": "A handle for buffered writing never holds back more than 10000 messages or the ring's maximum, nor more bytes than a tenth of the ring or 1 GB (the whole size of a ring smaller than 10 KB); up to this limit every legal batch is accepted without touching the ring, and other handles hold back nothing.", "quantifier": "every history, every ring size and every batch", "why_tests_cant": "Bounds over all histories.", "anchors": ["src/shr.c:init_cache", "src/shr.c:shr_writev"]}
{"id": "C89", "title": "When opening and creating a ring succeed, and what a handle holds", "statement": "shr_open succeeds exactly if its flags are valid and every system service it needs succeeds, and shr_init returns 0 exactly if its arguments are valid and either the existing ring is to be kept or every system service succeeds; an opened handle holds a number of descriptors, mappings and blocks of memory that is determined by its mode.", "quantifier": "every combination of flags, attributes of the ring, and failures of system services", "why_tests_cant": "All combinations of failures.", "anchors": ["src/shr.c:shr_open", "src/shr.c:shr_init", "lib/bw.c:bw_open"]}
{"id": "C90", "title": "Exactly what shr-tool makes of numbers and addresses", "statement": "A number given to -N, -H or as a port is the decimal number at the beginning of the text (behind blanks, with a sign), in 32 bits, and 0 if there is none; negative maxima wrap to 2^64. An address is accepted exactly if its port is between 1 and 65535 and its host (the text before the first colon, or all interfaces) resolves.", "quantifier": "every text", "why_tests_cant": "Infinitely many texts.", "anchors": ["util/shr-tool.c:main:918-960", "util/shr-tool.c:parse_spec"]}
{"id": "C91", "title": "Exactly which hexadecimal texts shr-tool writehex takes", "statement": "writehex takes exactly the texts of even length in which a hexadecimal number starts at each pair, and writes the value of each; it refuses all others, and crashes exactly on those whose first pair that is no number is a minus before a digit other than 0.", "quantifier": "every text", "why_tests_cant": "Infinitely many texts.", "anchors": ["util/shr-tool.c:unhex"]}
{"id": "C92", "title": "A batch is its messages, one by one", "statement": "A successful batch write on an unbuffered handle is, for everybody, now and later, the same as writing its messages one by one (these writes succeed as well); a batch read is the same as reading its messages one by one.", "quantifier": "every ring, every history before, every batch, every continuation", "why_tests_cant": "Every pair of histories and every continuation.", "anchors": ["src/shr.c:shr_writev", "src/shr.c:shr_readv"]}
{"id": "C93", "title": "The library never looks at the bytes", "statement": "Replace every byte b given to the library by f(b): every result is the same, with f(b) in place of b. Two histories that differ only in the bytes return the same numbers and lengths.", "quantifier": "every ring, every history, every function on bytes", "why_tests_cant": "Every function and every pair of histories.", "anchors": ["src/shr.c:shr_writev", "src/shr.c:shr_readv", "src/shr.c:shr_appdata"]}
{"id": "C94", "title": "Grouping and buffering of writes cannot be observed afterwards", "statement": "Two sequences of writes and flushes through the same handle that accept the same messages and leave the same messages held back are indistinguishable afterwards: whatever is done later, by anybody, gives the same results, counters included (as long as wake-ups and msync succeed).", "quantifier": "every ring, every history before, every two sequences of writes and flushes, every continuation", "why_tests_cant": "Every pair of histories and every continuation.", "anchors": ["src/shr.c:shr_writev", "src/shr.c:shr_flush"]}
{"id": "C95", "title": "An empty message in a buffered write poisons the handle", "statement": "A buffered write whose first message is not empty but a later one is, and which fits beside what is held back, is accepted like any other; from then on nothing written through this handle is ever delivered: for everybody else it is as if the handle had not been used since before that write. A flush, or the flush in shr_close, that gets the lock and finds room aborts the process.", "quantifier": "every history before, every such vector, every sequence of later calls on this and other handles", "why_tests_cant": "Every history and every continuation.", "anchors": ["src/shr.c:shr_writev", "src/shr.c:shr_flush", "src/shr.c:shr_close"]}
{"id": "C96", "title": "Readers of a farm survive the death of writers", "statement": "On a farm ring any of whose users may be killed inside any call, between any two stores to the ring, except right after one that moves the position of the eldest message: all readers go on reading one and the same list of messages, to which every write adds its batch as a whole or not at all; what the reads on a handle return are pieces of this list, in order and disjoint, and shr_farm_stat returns how many messages between them were missed; every message was passed to shr_writev; opening, reading, shr_stat, shr_farm_stat and shr_appdata complete; a write that reports success has its messages in the ring; no call does anything undefined. Not promised, and false: that other writers can go on (an assertion may fail in a later write), and that the readers are right after a death between the stores that move the eldest position.", "quantifier": "every sequence of calls and deaths on a farm ring, every store at which a caller is killed but those named, fewer than 2^64 messages", "why_tests_cant": "Every crash point of every call in every history; killing a process between two given stores needs a debugger.", "anchors": ["src/shr.c:shr_writev", "src/shr.c:shr_readv", "src/shr.c:drop_unread", "src/shr.c:shr_farm_stat"]}
{"id": "C97", "title": "A farm on which a death left the control block in order goes on", "statement": "On a farm ring some of whose users were killed inside calls (as in the property before): whenever the numbers in the control block fit to each other, all calls that follow, also those of other writers, complete and return exactly what they would on a ring with the same messages and reader positions on which nobody died, and the control block stays in order. Killing a caller that opens, reads, or looks at the counters or the app data leaves it in order, wherever it is killed. Killing a writer does if it had not moved the write position and was not between two related stores, and also as soon as it has counted messages for which nothing had to be given up.", "quantifier": "every sequence of calls and deaths on a farm ring, every store at which a caller is killed, all calls that follow", "why_tests_cant": "Every crash point of every call in every history, and every continuation.", "anchors": ["src/shr.c:shr_writev", "src/shr.c:shr_readv", "src/shr.c:drop_unread", "src/shr.c:shr_farm_stat"]}
{"id": "C98", "title": "On a farm every reader gets everything that is still there", "statement": "On a farm ring no write, flush or close ever waits. If, from some moment on, waiting reads take their wake-ups and try again, the readers call shr_readv with buffers as large as the ring (a non-blocking reader whenever its descriptor is readable), nobody writes and the system calls succeed, then after finitely many steps nothing more happens. Each reader receives, whatever the other readers do, the messages that were in the ring beyond its own position at that moment, in order and once; at the end it has received all of them. As in C83 this needs that no wake-up failed before without a later one succeeding (C34).", "quantifier": "every history before that moment, every interleaving of the steps after it, any number of readers; fewer than 2^64 messages", "why_tests_cant": "Liveness: infinitely many schedules, of any length.", "anchors": ["src/shr.c:shr_readv", "src/shr.c:shr_writev", "lib/bw.c:bw_wait_ul", "lib/bw.c:bw_ready_ul", "lib/bw.c:bw_wake", "lib/bw.c:bw_force"]}
{"id": "C99", "title": "The exit status of bw-tool tells what happened, and a run harms nobody", "statement": "bw-tool wake exits with status 0 only if it made a bw_wake that left a datagram at every waiter open on the handle at that moment, and it does if all system calls succeed. bw-tool wait exits with status 0 only if it was woken by another process after it had registered, and no signal came, and it has given up its slot; except that with -w an error of bw_wait_ul also ends with status 0. bw-tool make exits with status 0 only if the file has exactly the size of a bw_handle, empty if the file is new. However a run ends, every other waiter keeps its slot and its datagrams, and the process leaves nothing but slots that can be taken again once its death is found out. A signal ends wait without bw_close.", "quantifier": "every interleaving with the calls of other processes, all options, every failure of a system call, every moment at which a signal comes", "why_tests_cant": "Depends on the schedule of other processes and on failures of system calls.", "anchors": ["lib/bw-tool.c:main", "lib/bw-tool.c:await_readiness", "lib/bw-tool.c:map", "lib/bw.c:bw_open", "lib/bw.c:bw_wake", "lib/bw.c:bw_wait_ul", "lib/bw.c:bw_close"]}
{"id": "C100", "title": "With failing wake-ups the counters are off by exactly what the failed calls put in", "statement": "Consuming ring, any stretch without a reset, whatever fails: messages written plus uncounted plus unread before = messages read plus dropped plus unread after, and the same for bytes (mod 2^64). The uncounted messages are exactly those of the writes, flushes and closes that put their messages into the ring and then failed to wake the readers; such a write or flush returns -1. So if no write and no flush returned -1 and the wake-ups of closes succeed, the balance of C17 holds. What was unread and what was put in is, in order, what was delivered or dropped and what is unread.", "quantifier": "every ring size, every history of calls on any handles, every failure of locking, waking, syncing, waiting and opening", "why_tests_cant": "The failures and the history are arbitrary.", "anchors": ["src/shr.c:shr_writev", "src/shr.c:shr_flush", "src/shr.c:shr_close", "src/shr.c:shr_readv", "lib/bw.c:bw_wake"]}
{"id": "C101", "title": "Whatever fails, a buffered writer loses nothing that was accepted", "statement": "Any ring, any failures: as long as a handle is not closed, what it had cached and what its writes were told was accepted is, in order, a subsequence of what it put into the ring and what it has cached now; and all of that is among what it had cached and was given to write. Only a flush (or the flush inside a write) whose wake-up or msync failed after the messages were put in leaves them cached as well, and only a write that returned -1 can have put in messages that were not accepted. So if no call on the handle returned -1, what went into the ring and what is cached is exactly what was cached and what was accepted, in order.", "quantifier": "every ring kind and size, every history on any handles, every failure of locking, waking, syncing, waiting and opening", "why_tests_cant": "The failures and the history are arbitrary.", "anchors": ["src/shr.c:shr_writev", "src/shr.c:shr_flush", "src/shr.c:shr_close", "lib/bw.c:bw_wake"]}
{"id": "C102", "title": "Waiting gives no precedence", "statement": "A write (read) that has to wait gets in at the first attempt that finds room (a message), and having waited gives it no precedence: for every n there is an execution in which n later writes (reads) of others get in while a waiting write (read), tried again after each of their calls, does not.", "quantifier": "every n; every attempt in every history for what a single attempt does", "why_tests_cant": "Executions of unbounded length; that nothing bounds the overtaking cannot be seen in any one run.", "anchors": ["src/shr.c:shr_writev", "src/shr.c:shr_readv", "lib/bw.c:bw_wait_ul"]}
{"id": "C103", "title": "How much a call stores while it holds the lock is bounded", "statement": "The number of stores a call makes to the ring is bounded by what it is asked to do, in any state of the ring: three for each message read and two more; for a write, flush or close each byte once and three for each message, and a constant; two for the counters; one for each byte of app data; none for opening and farm counters. So in every correct history there is a bound that depends on the size of the ring, its message limit and its app data alone, whatever the call is asked and however long the history.", "quantifier": "every state, every call, every argument, every failure of a system call; every correct history for the bound by the ring size", "why_tests_cant": "Every state and argument; the number of stores is not observable from outside.", "anchors": ["src/shr.c:lock", "src/shr.c:shr_readv", "src/shr.c:shr_writev", "src/shr.c:shr_flush", "src/shr.c:shr_close", "src/shr.c:shr_stat", "src/shr.c:shr_appdata", "src/shr.c:drop_unread"]}
{"id": "C104", "title": "mount -q tells what ramdisk a directory is", "statement": "shr-tool mount -q prints for a directory that is the root of a ramfs, hugetlbfs or tmpfs which of them it is, and for a tmpfs its size, rounded down in the largest of bytes, kb, mb, gb that is not larger, and which share of it is used, in percent rounded down; for any other directory it says that it is no ramdisk, and the exit status tells the two apart.", "quantifier": "every name, every answer of stat and statfs", "why_tests_cant": "Every size, usage and kind of file system; mounting them takes root.", "anchors": ["util/shr-tool.c:query_ramdisk", "util/shr-tool.c:suitable_mountpoint", "util/shr-tool.c:main"]}
{"id": "C105", "title": "Memory safety survives any death", "statement": "However many processes have died inside calls on a ring (killed at any moment or by a failed assertion), whatever they left behind, and whatever calls were made since: no call, with arguments a C program can pass, accesses memory outside the regions of the ring, the caller's buffers or the cache of the writer, or divides by zero, except shr_appdata asked for the data with a buffer larger than them (C25). The sizes in the file stay as created, the write position and the position of every message lie in the data area, the slots of the next read and the eldest message exist; and what a read reports lies within the caller's buffer.", "quantifier": "every ring kind and size, every sequence of calls and deaths, every failure of a system call, every moment of death inside a call, also one between two stores of a memcpy", "why_tests_cant": "Sequences of deaths of any length, at any store; out-of-bounds accesses in states nobody thought of.", "anchors": ["src/shr.c:lock", "src/shr.c:shr_readv", "src/shr.c:shr_writev", "src/shr.c:shr_flush", "src/shr.c:drop_unread", "src/shr.c:shr_appdata", "src/shr.c:shr_stat", "src/shr.c:shr_farm_stat", "src/shr.c:shr_close"]}
{"id": "C106", "title": "Whatever a death leaves behind, no call spins", "statement": "However many processes have died inside calls on a ring, whatever they left behind: every later call completes, reports that it has to wait, or ends by a failed assertion; none loops forever with the lock held. For a ring in DROP mode this is claimed if its size plus four, times its number of slots, is below 2^64.", "quantifier": "every ring kind, every sequence of calls and deaths, every failure of a system call, every moment of death inside a call", "why_tests_cant": "That a loop ends cannot be tested; the states deaths leave behind are too many.", "anchors": ["src/shr.c:drop_unread", "src/shr.c:shr_writev", "src/shr.c:shr_flush", "src/shr.c:shr_readv", "src/shr.c:lock"]}
{"id": "C107", "title": "What deaths do to the file, and the one reason to refuse it", "statement": "However many processes have died inside calls on a ring and whatever calls were made since: at every moment, also inside the next call, the file has its length, its magic, the sizes and attributes it was created with, and every other byte outside of counters, positions, statistics, message vector, data and application data; it is what single stores, each within its own region, made of the file that shr_init made. shr_open, if its system calls succeed, obtains a handle on it exactly if not more bytes are counted as unread than the ring has; the other checks cannot fail.", "quantifier": "every ring kind and size, every sequence of calls and deaths, every failure of a system call, every moment of death inside a call", "why_tests_cant": "Sequences of deaths of any length, at any store, and the file at every moment in between.", "anchors": ["src/shr.c:shr_open", "src/shr.c:validate_ring", "src/shr.c:shr_init", "src/shr.c:shr_readv", "src/shr.c:shr_writev"]}
{"id": "C108", "title": "Bytes are only carried, whatever deaths leave behind", "statement": "Also on a ring that deaths have left in any state: the library never looks at the bytes of messages and application data. If all bytes handed over are replaced (each byte by a function of it, zero by zero), the same calls complete or fail, with the same return values and lengths, the file is the same at every moment and the callers get the same, with the bytes replaced. And it makes none up: every byte that a read or shr_appdata hands out, and at every moment every byte of the data and application data in the file, is zero or was handed over by somebody, in a call that completed or in which its caller died, or was in the reader's buffer already.", "quantifier": "every ring kind and size, every replacement of bytes, every sequence of calls with any arguments and of deaths at any store", "why_tests_cant": "All contents of all messages, and sequences of deaths of any length at any store.", "anchors": ["src/shr.c:shr_readv", "src/shr.c:shr_writev", "src/shr.c:shr_appdata", "src/shr.c:shr_flush"]}
{"id": "C109", "title": "Every call touches only what it is for", "statement": "In every state of the ring, however damaged, at every moment of a call and also if its caller dies: shr_open and shr_farm_stat leave the ring as it is; shr_stat changes at most the statistics, and only if asked to reset them; shr_appdata at most the application data, and only if given some; a read at most the read position, the counts of what is unread, and the statistics, never a byte of the data and never the message vector, and on a farm only the statistics; a write, flush or close neither the attributes and sizes nor the application data, and on a ring without SHR_DROP neither the read position nor the counts of dropped messages; closing a handle that is not for writing nothing. No call changes the handles of others. So the attributes and sizes last forever, and the application data until somebody sets them.", "quantifier": "every state of ring and handles, every call with any arguments, every store of it, every sequence of calls and deaths", "why_tests_cant": "All states of a ring, also those that only deaths can make, and the ring between any two stores.", "anchors": ["src/shr.c:shr_open", "src/shr.c:shr_stat", "src/shr.c:shr_farm_stat", "src/shr.c:shr_appdata", "src/shr.c:shr_readv", "src/shr.c:shr_writev", "src/shr.c:shr_flush", "src/shr.c:shr_close"]}
