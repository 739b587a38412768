{
 "claims": [
  {
   "property": "C01",
   "status": "proved",
   "theorems": [
    "Shr.C01_fifo_exactly_once",
    "Shr.C01_fifo_any_failures",
    "Shr.C01_delivered_prefix",
    "Shr.C01_drained",
    "Shr.C26_order_preserved"
   ],
   "note": "for every history of a consuming ring; second theorem without any assumption on wake/msync failures; C26_order_preserved is the version with buffered writers"
  },
  {
   "property": "C02",
   "status": "proved",
   "theorems": [
    "Shr.C02_round_trip",
    "Shr.C13_subsequence",
    "Shr.C14_farm_reader_sees_all_or_counts"
   ],
   "note": ""
  },
  {
   "property": "C03",
   "status": "partial",
   "theorems": [
    "Shr.C03_batch_is_atomic",
    "Shr.C03_all_or_nothing_partial",
    "Shr.C03_counterexample"
   ],
   "note": "false as stated in English: when the wake-up (or msync in SYNC mode) fails after the commit the write returns -1 although its messages are in the ring; the counterexample is proved, and all-or-nothing is proved when these succeed"
  },
  {
   "property": "C04",
   "status": "proved",
   "theorems": [
    "Shr.C04_nonblocking_write_refuses_iff"
   ],
   "note": ""
  },
  {
   "property": "C05",
   "status": "proved",
   "theorems": [
    "Shr.C05_capacity",
    "Shr.C05_stat_reports_unread"
   ],
   "note": ""
  },
  {
   "property": "C06",
   "status": "proved",
   "theorems": [
    "Shr.C06_invalid_write_rejected"
   ],
   "note": ""
  },
  {
   "property": "C07",
   "status": "partial",
   "theorems": [
    "Shr.C07_first_empty_rejected_partial",
    "Shr.C07_counterexample"
   ],
   "note": "false as stated: an empty element after a nonempty one passes the argument check and aborts the process at the assertion inside the critical section"
  },
  {
   "property": "C08",
   "status": "proved",
   "theorems": [
    "Shr.C08_drained_ring_accepts",
    "Shr.C08_exact_fit"
   ],
   "note": ""
  },
  {
   "property": "C09",
   "status": "proved",
   "theorems": [
    "Shr.C09_longest_prefix"
   ],
   "note": ""
  },
  {
   "property": "C10",
   "status": "proved",
   "theorems": [
    "Shr.C10_message_left_in_place"
   ],
   "note": ""
  },
  {
   "property": "C100",
   "status": "proved",
   "theorems": [
    "Shr.C100_conservation_any_failures",
    "Shr.C100_uncounted_only_after_failure",
    "Shr.C100_conservation_without_errors"
   ],
   "note": "which messages a call put in and which of them are not counted: Spec/Failures.lean, WriteDid, FlushDid, CloseDid, Story"
  },
  {
   "property": "C101",
   "status": "proved",
   "theorems": [
    "Shr.C101_story",
    "Shr.C101_nothing_accepted_is_lost",
    "Shr.C101_nothing_invented",
    "Shr.C101_exact_without_errors"
   ],
   "note": ""
  },
  {
   "property": "C102",
   "status": "proved",
   "theorems": [
    "Shr.C102_overtaken",
    "Shr.C102_reader_overtaken",
    "Shr.C69_no_room",
    "Shr.C69_written"
   ],
   "note": "what a single attempt does: the theorems of C69"
  },
  {
   "property": "C103",
   "status": "proved",
   "theorems": [
    "Shr.C103_stores",
    "Shr.C103_bounded"
   ],
   "note": "counted are the stores before which a caller can be killed (Sys.points), one byte of a copy at a time"
  },
  {
   "property": "C104",
   "status": "partial",
   "theorems": [
    "Shr.C104_not_a_ramdisk",
    "Shr.C104_unbounded",
    "Shr.C104_tmpfs_partial",
    "Shr.C104_counterexample_unlimited",
    "Shr.C104_counterexample_huge",
    "Shr.C104_counterexample_status",
    "Shr.C78_counterexample_query"
   ],
   "note": "false as stated: for a tmpfs mounted with size=0 the percentage is 0.0/0.0 converted to int; from 2^63 bytes on the size is negative; the exit status is 0 in any case. The percentage is computed with exact numbers instead of doubles"
  },
  {
   "property": "C105",
   "status": "proved",
   "theorems": [
    "Shr.C105_no_wild_access",
    "Shr.C105_only_overread",
    "Shr.C105_file_in_range",
    "Shr.C105_reads_stay_in_the_buffer"
   ],
   "note": "the state at a death is any of Sys.points, the states between the stores of a call; arguments: Op.Fair"
  },
  {
   "property": "C106",
   "status": "proved",
   "theorems": [
    "Shr.C106_no_spin"
   ],
   "note": "waiting for the lock or in bw_wait_ul is not spinning"
  },
  {
   "property": "C107",
   "status": "proved",
   "theorems": [
    "Shr.C107_file",
    "Shr.C107_opens_iff"
   ],
   "note": "that the one check can fail: C33_counterexample_unopenable"
  },
  {
   "property": "C108",
   "status": "proved",
   "theorems": [
    "Shr.C108_data",
    "Shr.C108_data_fault",
    "Shr.C108_shape",
    "Shr.C108_no_invention",
    "Shr.C108_file_bytes"
   ],
   "note": "C93 says the first for valid histories, where zero may be replaced too"
  },
  {
   "property": "C109",
   "status": "proved",
   "theorems": [
    "Shr.C109_touches",
    "Shr.C109_completed",
    "Shr.C109_reader_close",
    "Shr.C109_lasts"
   ],
   "note": ""
  },
  {
   "property": "C11",
   "status": "proved",
   "theorems": [
    "Shr.C11_zero_iff_nothing_unread"
   ],
   "note": ""
  },
  {
   "property": "C12",
   "status": "proved",
   "theorems": [
    "Shr.C12_drop_write",
    "Shr.C12_drop_any_write",
    "Shr.C12_drop_flush",
    "Shr.C12_drop_close"
   ],
   "note": "direct writes, writes on buffered handles, flush and close"
  },
  {
   "property": "C13",
   "status": "proved",
   "theorems": [
    "Shr.C13_delivered_or_counted",
    "Shr.C13_subsequence",
    "Shr.C13_buffered"
   ],
   "note": "unbuffered writers under any failures; any mixture of writers if wake-ups and msync succeed"
  },
  {
   "property": "C14",
   "status": "proved",
   "theorems": [
    "Shr.C14_farm_reader_sees_all_or_counts",
    "Shr.C14_drained",
    "Shr.C14_nothing_missed"
   ],
   "note": ""
  },
  {
   "property": "C15",
   "status": "proved",
   "theorems": [
    "Shr.C15_farm_readers_independent"
   ],
   "note": ""
  },
  {
   "property": "C16",
   "status": "proved",
   "theorems": [
    "Shr.C16_new_reader_starts_at_oldest",
    "Shr.C16_retention",
    "Shr.C16_every_call",
    "Shr.C16_history"
   ],
   "note": ""
  },
  {
   "property": "C17",
   "status": "partial",
   "theorems": [
    "Shr.C17_conservation_partial",
    "Shr.C17_reset",
    "Shr.C17_period_partial",
    "Shr.C17_counterexample"
   ],
   "note": "false as stated if a wake-up fails: the messages of that write are in the ring but not counted (proved); true for all histories in which wake-ups and msync succeed"
  },
  {
   "property": "C18",
   "status": "proved",
   "theorems": [
    "Shr.C18_no_fault",
    "Shr.C18_bytes_in_bounds",
    "Shr.C18_copy_in_bounds",
    "Shr.C18_cache_in_bounds",
    "Shr.C18_slots_in_bounds",
    "Shr.C18_assert",
    "Shr.C18_counterexample_both_modes"
   ],
   "note": "valid arguments exclude opening with both modes, which the library accepts by mistake and which makes reads abort (second theorem)"
  },
  {
   "property": "C19",
   "status": "partial",
   "theorems": [
    "Shr.C19_layout_partial",
    "Shr.C19_ctrl_layout",
    "Shr.C19_members",
    "Shr.C19_store",
    "Shr.C19_fixed_bytes",
    "Shr.C19_every_store",
    "Shr.C19_counterexample",
    "Shr.C19_flag_values"
   ],
   "note": "false as stated when the sizes overflow size_t (proved); true for all sizes that do not"
  },
  {
   "property": "C20",
   "status": "partial",
   "theorems": [
    "Shr.C20_invalid_arguments",
    "Shr.C20_keepexist",
    "Shr.C20_replaces",
    "Shr.C20_failure",
    "Shr.C20_attributes_partial",
    "Shr.C20_counterexample_appdata"
   ],
   "note": "false as stated for one attribute: SHR_APPDATA is never reported (proved); sizes that overflow are excluded (C19)"
  },
  {
   "property": "C21",
   "status": "proved",
   "theorems": [
    "Shr.C21_fresh_ring_opens"
   ],
   "note": ""
  },
  {
   "property": "C22",
   "status": "proved",
   "theorems": [
    "Shr.C22_persists",
    "Shr.C22_counterexample_cached",
    "Shr.C30_close"
   ],
   "note": "the counterexample shows why handles with cached messages are excluded"
  },
  {
   "property": "C23",
   "status": "partial",
   "theorems": [
    "Shr.C23_modes_partial",
    "Shr.C23_counterexample",
    "Shr.C18_counterexample_both_modes"
   ],
   "note": "false as stated: the check accepts RDONLY|WRONLY together, and reads on such a handle abort"
  },
  {
   "property": "C24",
   "status": "partial",
   "theorems": [
    "Shr.C24_validated_partial",
    "Shr.C24_counterexample"
   ],
   "note": "false as stated: the size sum can be negative as ssize_t, and e, m, mp are not checked"
  },
  {
   "property": "C25",
   "status": "partial",
   "theorems": [
    "Shr.C25_unaffected_by_traffic",
    "Shr.C25_register",
    "Shr.C25_call_partial",
    "Shr.C25_counterexample_overread",
    "Shr.C25_counterexample_ignored"
   ],
   "note": "false as stated for two argument combinations, which are proved as counterexamples"
  },
  {
   "property": "C26",
   "status": "partial",
   "theorems": [
    "Shr.C26_order_preserved",
    "Shr.C26_counterexample"
   ],
   "note": "holds while wake-ups and msync succeed; if one fails after a flush committed, the cache is written twice (proved)"
  },
  {
   "property": "C27",
   "status": "proved",
   "theorems": [
    "Shr.C27_cache_bounds",
    "Shr.C27_flush_to_drained_ring",
    "Shr.C27_flush_all_or_nothing",
    "Shr.C12_drop_flush"
   ],
   "note": ""
  },
  {
   "property": "C28",
   "status": "partial",
   "theorems": [
    "Shr.C28_refused_write_leaves_nothing_partial",
    "Shr.C28_counterexample"
   ],
   "note": "false as stated if the call returns -1 because the wake-up or msync failed after the commit (proved); true otherwise"
  },
  {
   "property": "C29",
   "status": "proved",
   "theorems": [
    "Shr.C29_mode_unchanged"
   ],
   "note": ""
  },
  {
   "property": "C30",
   "status": "proved",
   "theorems": [
    "Shr.C30_close",
    "Shr.C30_discard_changes_nothing_else"
   ],
   "note": ""
  },
  {
   "property": "C31",
   "status": "proved",
   "theorems": [
    "Shr.C31_linearizable",
    "Shr.C31_no_deadlock",
    "Shr.C31_mutual_exclusion",
    "Shr.C31_fifo_exactly_once",
    "Shr.C31_buffered_write_splits"
   ],
   "note": "processes interleave single loads and stores; a buffered write that must flush first is two calls"
  },
  {
   "property": "C32",
   "status": "proved",
   "theorems": [
    "Shr.C32_killed_writer",
    "Shr.C32_indistinguishable"
   ],
   "note": ""
  },
  {
   "property": "C33",
   "status": "partial",
   "theorems": [
    "Shr.C33_status_calls_partial",
    "Shr.C33_survivors_partial",
    "Shr.C33_survivors_deliver_partial",
    "Shr.C33_indistinguishable_partial",
    "Shr.C33_as_if_never_partial",
    "Shr.C33_as_if_completed_partial",
    "Shr.C33_writer_points_partial",
    "Shr.C33_reader_points_partial",
    "Shr.C33_counterexample_writer",
    "Shr.C33_counterexample_reader",
    "Shr.C33_counterexample_unopenable"
   ],
   "note": "false as stated for processes killed between two related stores of a read or write (proved); true for the other calls, and for every death, in any number, that leaves the control block consistent: then the ring is fully usable and nobody can tell; which points these are is proved"
  },
  {
   "property": "C34",
   "status": "partial",
   "theorems": [
    "Shr.C34_blocked_reader_partial",
    "Shr.C34_successful_write_wakes",
    "Shr.C34_counterexample_failed_wake",
    "Shr.C40_counterexample_name_reuse"
   ],
   "note": "false as stated if bw_wake fails (the write then returns -1 with its messages committed; proved) or the writer is killed before it (C85), until the next successful write, or if the kernel reuses a name; proved for every schedule otherwise, with processes killed inside calls, and every successful write leaves a wake-up at every open reader whatever failed before"
  },
  {
   "property": "C35",
   "status": "partial",
   "theorems": [
    "Shr.C35_blocked_writer_partial",
    "Shr.C35_counterexample_failed_wake"
   ],
   "note": "false as stated if the reader's bw_wake fails, which it ignores (proved), or the reader is killed before it, until the next successful one; proved for every schedule otherwise, with processes killed inside calls"
  },
  {
   "property": "C36",
   "status": "partial",
   "theorems": [
    "Shr.C36_available_implies_readable_partial",
    "Shr.C36_drained_is_not_readable_partial",
    "Shr.C36_counterexample_failed_wake",
    "Shr.C36_counterexample_failed_force",
    "Shr.C36_counterexample_farm_name"
   ],
   "note": "false as stated: as C34 for the first part; a failed bw_force leaves the descriptor readable, and on a farm ring a read by another reader can make it readable if the socket got the name of a dead waiter (both proved); proved for every schedule otherwise (second part: no reads by others on a farm ring; deaths of others also inside calls)"
  },
  {
   "property": "C37",
   "status": "proved",
   "theorems": [
    "Shr.C37_selectable_fd",
    "Shr.C37_otherwise_minus_one"
   ],
   "note": ""
  },
  {
   "property": "C38",
   "status": "proved",
   "theorems": [
    "Shr.C38_bounded",
    "Shr.C38_slots_exclusive",
    "Shr.C38_65th_fails",
    "Shr.C38_close_frees",
    "Shr.C38_recycled",
    "Shr.C38_room"
   ],
   "note": "under the stated assumption on the kernel"
  },
  {
   "property": "C39",
   "status": "proved",
   "theorems": [
    "Shr.C39_wake_reaches_all",
    "Shr.C39_counterexample_undetermined"
   ],
   "note": "under the stated assumption on the kernel; the second theorem shows when bw_wake fails"
  },
  {
   "property": "C40",
   "status": "partial",
   "theorems": [
    "Shr.C40_waiters_are_registered_partial",
    "Shr.C40_never_evicted_partial",
    "Shr.C40_evicted_iff",
    "Shr.C40_evictor",
    "Shr.C40_evicted_for_good",
    "Shr.C40_counterexample_name_reuse",
    "Shr.C40_counterexample_send_error",
    "Shr.C40_counterexample_close"
   ],
   "note": "false as stated: a reused socket name or a hard send error evicts a live waiter, and then the close of the evicted one evicts the next (all proved); true if neither happens; C40_evicted_iff: after any history, exactly these steps evict; eviction is for good"
  },
  {
   "property": "C41",
   "status": "proved",
   "theorems": [
    "Shr.C41_scan_exact",
    "Shr.C41_no_is_true",
    "Shr.C41_yes_is_true",
    "Shr.C41_values",
    "Shr.C41_definite",
    "Shr.C41_long_path",
    "Shr.C41_nameless_row_blocks_no",
    "Shr.C41_refines_bw",
    "Shr.C41_counterexample_nameless"
   ],
   "note": "sound for every table; the last theorems show that one nameless socket in the table makes it indeterminate"
  },
  {
   "property": "C42",
   "status": "proved",
   "theorems": [
    "Shr.C42_get_col_iff",
    "Shr.C42_get_col_found",
    "Shr.C42_get_col_fails_iff"
   ],
   "note": ""
  },
  {
   "property": "C43",
   "status": "proved",
   "theorems": [
    "Shr.C43_total_is_exact",
    "Shr.C43_oversize_rejected"
   ],
   "note": ""
  },
  {
   "property": "C44",
   "status": "proved",
   "theorems": [
    "Shr.C44_interrupted_write_no_effect",
    "Shr.C44_interrupted_read_no_effect",
    "Shr.C44_interrupted_buffered_write",
    "Shr.C44_interrupted_flush",
    "Shr.C69_no_room"
   ],
   "note": ""
  },
  {
   "property": "C45",
   "status": "proved",
   "theorems": [
    "Shr.C45_subscriber",
    "Shr.C45_all_received",
    "Shr.C45_publisher",
    "Shr.C45_end_to_end",
    "Shr.C45_counterexample_short_prefix"
   ],
   "note": "while the ring takes what the subscriber hands over; the last theorem: a short write of the four prefix bytes aborts the publisher (it does not corrupt the stream)"
  },
  {
   "property": "C46",
   "status": "partial",
   "theorems": [
    "Shr.C46_received_partial",
    "Shr.C46_counterexample_large",
    "Shr.C46_counterexample_batch"
   ],
   "note": "false as stated: a message of more than 999996 bytes aborts the subscriber, and messages that arrive together must fit into the ring together (both proved)"
  },
  {
   "property": "C47",
   "status": "partial",
   "theorems": [
    "Shr.C47_roundtrip",
    "Shr.C47_rejects",
    "Shr.C47_no_crash_partial",
    "Shr.C47_counterexample_minus",
    "Shr.C47_accepts_other_text"
   ],
   "note": "false as stated: '-1' crashes the tool (proved); without a minus sign it does not crash"
  },
  {
   "property": "C48",
   "status": "proved",
   "theorems": [
    "Shr.C48_hexdump",
    "Shr.C48_injective"
   ],
   "note": ""
  },
  {
   "property": "C49",
   "status": "partial",
   "theorems": [
    "Shr.C49_whole_write_partial",
    "Shr.C49_counterexample_short_write",
    "Shr.C49_counterexample_failed_write",
    "Shr.C49_failing_write_loops",
    "Shr.C49_pieces"
   ],
   "note": "false as stated: after a short write the beginning is printed again, and a failed write is not noticed (proved)"
  },
  {
   "property": "C50",
   "status": "partial",
   "theorems": [
    "Shr.C50_tee_partial",
    "Shr.C50_stops_only",
    "Shr.C50_counterexample"
   ],
   "note": "false as stated: if a write to one of the rings fails, the message that was taken is lost for it (proved); true until then, and the only way to stop is proved"
  },
  {
   "property": "C51",
   "status": "proved",
   "theorems": [
    "Shr.C51_size",
    "Shr.C51_exact",
    "Shr.C51_negative_accepted"
   ],
   "note": ""
  },
  {
   "property": "C52",
   "status": "proved",
   "theorems": [
    "Shr.C52_creation_is_atomic"
   ],
   "note": ""
  },
  {
   "property": "C53",
   "status": "partial",
   "theorems": [
    "Shr.C53_killed_creator_partial",
    "Shr.C53_counterexample"
   ],
   "note": "false as stated: a creator killed between storing the magic and the flags or app data leaves a ring that opens without them (proved)"
  },
  {
   "property": "C54",
   "status": "partial",
   "theorems": [
    "Shr.C54_failed_open_partial",
    "Shr.C54_counterexample_malloc",
    "Shr.C54_counterexample_sync"
   ],
   "note": "false as stated: failure of the cache allocation or of msync leaks the waiter slot (both proved); proved for all other failures"
  },
  {
   "property": "C55",
   "status": "proved",
   "theorems": [
    "Shr.C55_waits_on_own_handle",
    "Shr.C55_no_fault"
   ],
   "note": "whatever system calls fail, and with processes killed inside calls"
  },
  {
   "property": "C56",
   "status": "partial",
   "theorems": [
    "Shr.C56_no_deadlock_partial",
    "Shr.C35_counterexample_failed_wake"
   ],
   "note": "as C34 and C35"
  },
  {
   "property": "C57",
   "status": "partial",
   "theorems": [
    "Shr.C57_close_releases",
    "Shr.C57_counterexample_lock"
   ],
   "note": "false as stated if shr_close cannot lock the file (proved)"
  },
  {
   "property": "C58",
   "status": "proved",
   "theorems": [
    "Shr.C58_slurp_whole",
    "Shr.C58_slurp_terminates"
   ],
   "note": ""
  },
  {
   "property": "C59",
   "status": "proved",
   "theorems": [
    "Shr.C59_name_round_trip",
    "Shr.C59_names_injective",
    "Shr.C59_terminated",
    "Shr.C59_long_name_aborts"
   ],
   "note": ""
  },
  {
   "property": "C60",
   "status": "proved",
   "theorems": [
    "Shr.C60_lines",
    "Shr.C60_last_line",
    "Shr.C60_written_to_ring",
    "Shr.C60_long_line_split",
    "Shr.C60_nul_truncates"
   ],
   "note": "the last two show what happens outside of the limits"
  },
  {
   "property": "C61",
   "status": "partial",
   "theorems": [
    "Shr.C61_mode_letters",
    "Shr.C61_create_partial",
    "Shr.C61_max_exact",
    "Shr.C61_counterexample_appdata",
    "Shr.C61_counterexample_hugepages"
   ],
   "note": "false as stated: status does not list app data among the attributes, and -H is taken for -N (both proved); all else proved"
  },
  {
   "property": "C62",
   "status": "partial",
   "theorems": [
    "Shr.C62_status_partial",
    "Shr.C62_counterexample_counter",
    "Shr.C62_large_counters",
    "Shr.C61_counterexample_appdata"
   ],
   "note": "false as stated for counters from 2^63 on, which are printed as negative numbers (proved); true below"
  },
  {
   "property": "C63",
   "status": "partial",
   "theorems": [
    "Shr.C63_pub_partial",
    "Shr.C63_taken_for_client",
    "Shr.C63_polled",
    "Shr.C63_polls_iff",
    "Shr.C63_one_client",
    "Shr.C63_counterexample"
   ],
   "note": "false as stated: the message being sent when the client goes away is lost (proved); all else proved"
  },
  {
   "property": "C64",
   "status": "proved",
   "theorems": [
    "Shr.C64_prints_what_it_takes",
    "Shr.C64_stops_only"
   ],
   "note": ""
  },
  {
   "property": "C65",
   "status": "partial",
   "theorems": [
    "Shr.C65_port_range",
    "Shr.C65_address_partial",
    "Shr.C65_counterexample_wrap",
    "Shr.C65_counterexample_text"
   ],
   "note": "false as stated: numbers are taken modulo 2^32 and text behind the number is ignored (both proved); true for numbers below 2^31"
  },
  {
   "property": "C66",
   "status": "partial",
   "theorems": [
    "Shr.C66_only_added",
    "Shr.C66_interrupts_partial",
    "Shr.C66_read_returns",
    "Shr.C66_write_returns",
    "Shr.C66_unknown_flag",
    "Shr.C66_other_handles",
    "Shr.C66_counterexample"
   ],
   "note": "false as stated for buffered writers opened with SHR_NONBLOCK: shr_ctl returns 0 without effect, and shr_flush(s,1) later waits (proved); true for readers and blocking writers"
  },
  {
   "property": "C67",
   "status": "proved",
   "theorems": [
    "Shr.C67_delegate_path",
    "Shr.C67_parent_path",
    "Shr.C67_overrun"
   ],
   "note": ""
  },
  {
   "property": "C68",
   "status": "proved",
   "theorems": [
    "Shr.C68_ring_to_ring",
    "Shr.C68_stops_only"
   ],
   "note": ""
  },
  {
   "property": "C69",
   "status": "proved",
   "theorems": [
    "Shr.C69_refused",
    "Shr.C69_no_room",
    "Shr.C69_abort",
    "Shr.C69_written",
    "Shr.C69_aborts_iff"
   ],
   "note": "elements of at most SSIZE_MAX bytes (larger ones: C43)"
  },
  {
   "property": "C70",
   "status": "proved",
   "theorems": [
    "Shr.C70_reference_semantics"
   ],
   "note": ""
  },
  {
   "property": "C71",
   "status": "proved",
   "theorems": [
    "Shr.C71_opens_iff",
    "Shr.C71_reason"
   ],
   "note": ""
  },
  {
   "property": "C72",
   "status": "proved",
   "theorems": [
    "Shr.C72_ring_file_usable",
    "Shr.C72_library_leaves_ring_files"
   ],
   "note": ""
  },
  {
   "property": "C73",
   "status": "proved",
   "theorems": [
    "Shr.C73_in_range",
    "Shr.C73_torn_header_accepted",
    "Shr.C73_opens_any_time"
   ],
   "note": ""
  },
  {
   "property": "C74",
   "status": "proved",
   "theorems": [
    "Shr.C74_killed_creator",
    "Shr.C74_usable"
   ],
   "note": ""
  },
  {
   "property": "C75",
   "status": "proved",
   "theorems": [
    "Shr.C75_own_files",
    "Shr.C75_returned_zero",
    "Shr.C75_opener",
    "Shr.C75_all_returned",
    "Shr.C75_one_creator",
    "Shr.C75_keepexist_counterexample",
    "Shr.C75_vanish_counterexample"
   ],
   "note": "the two counterexamples show what the property says is not promised"
  },
  {
   "property": "C76",
   "status": "partial",
   "theorems": [
    "Shr.C76_held_partial",
    "Shr.C76_all_closed_partial",
    "Shr.C76_open_failed_partial",
    "Shr.C76_init",
    "Shr.C76_handle_bound",
    "Shr.C76_counterexamples"
   ],
   "note": "false as stated: six kinds of failures lose something, each with a counterexample; proved without them (ROp.Clean); the bound and shr_init hold without restriction"
  },
  {
   "property": "C77",
   "status": "proved",
   "theorems": [
    "Shr.C77_never_twice",
    "Shr.C77_monitor"
   ],
   "note": "ledger model of all calls, every outcome of every system call inside; threads sharing a handle are outside"
  },
  {
   "property": "C78",
   "status": "partial",
   "theorems": [
    "Shr.C78_create",
    "Shr.C78_create_ends",
    "Shr.C78_write",
    "Shr.C78_writehex",
    "Shr.C78_writefile",
    "Shr.C79_mount",
    "Shr.C78_status_partial",
    "Shr.C78_status_exact",
    "Shr.C78_loops",
    "Shr.C78_read",
    "Shr.C78_counterexample_status",
    "Shr.C78_counterexample_query",
    "Shr.C78_counterexample_read"
   ],
   "note": "false as stated for status -A, mount -q and the commands with an event loop, which exit with 255 also on success (all proved); proved for create, write, writehex, writefile, mount and status without -A"
  },
  {
   "property": "C79",
   "status": "proved",
   "theorems": [
    "Shr.C79_mount",
    "Shr.C79_unknown_is_mounted"
   ],
   "note": "getopt and the kernel's idea of a mount point are outside; the second theorem shows the limit of the check for a ramdisk"
  },
  {
   "property": "C80",
   "status": "proved",
   "theorems": [
    "Shr.C80_any_stream",
    "Shr.C80_frames_unique",
    "Shr.C80_empty_frame_kills"
   ],
   "note": "the second theorem shows that the description determines the messages; the third that an empty frame behind a nonempty one kills the subscriber while it holds the lock"
  },
  {
   "property": "C81",
   "status": "proved",
   "theorems": [
    "Shr.C81_confirmed",
    "Shr.C81_unsynced",
    "Shr.C81_power_failure",
    "Shr.C81_accepted",
    "Shr.C81_counterexample_read"
   ],
   "note": "disk blocks of any size that is a multiple of 8 and holds the control block are written whole; the bw slot bytes are not in the file model; shr_init does not msync, so nothing is promised before the first confirmed call"
  },
  {
   "property": "C82",
   "status": "partial",
   "theorems": [
    "Shr.C82_during_read",
    "Shr.C82_during_stat",
    "Shr.C82_during_appdata",
    "Shr.C82_during_write_partial",
    "Shr.C82_counterexample_torn_write",
    "Shr.C82_counterexample_torn_drop"
   ],
   "note": "false as stated for writes: the index entry may be on the disk without the data (a message read long ago is read again), and in DROP mode a confirmed message may be replaced by one nobody wrote; proved: old messages stay in front, the number of messages behind them, and exactness if the count had not reached the disk"
  },
  {
   "property": "C83",
   "status": "proved",
   "theorems": [
    "Shr.C83_no_endless_run",
    "Shr.C83_rest_is_empty",
    "Shr.C83_all_delivered",
    "Shr.C83_rest_is_reached"
   ],
   "note": "an eager step either succeeds in its block/wake calls or is excluded; the first theorem allows wake-ups to fail"
  },
  {
   "property": "C84",
   "status": "proved",
   "theorems": [
    "Shr.C84_points_end_in_step",
    "Shr.C84_others_keep_everything",
    "Shr.C84_other_wakers_stay",
    "Shr.C84_dead_is_gone",
    "Shr.C84_waiters_are_registered",
    "Shr.C84_slots_exclusive",
    "Shr.C84_wake_reaches_all",
    "Shr.C84_nobody_is_locked_out",
    "Shr.C84_counterexample_half_woken"
   ],
   "note": "for clean histories as in C38-C40 (their counterexamples are the two ways to be unclean); the last theorem is the limit named in the property"
  },
  {
   "property": "C85",
   "status": "proved",
   "theorems": [
    "Shr.C85_others_unharmed",
    "Shr.C85_victim_is_gone",
    "Shr.C85_ring_works",
    "Shr.C85_next_wake_makes_up",
    "Shr.C34_successful_write_wakes",
    "Shr.C85_counterexample_no_wake"
   ],
   "note": "clean histories as in C34; the last theorem is the limit named in the property"
  },
  {
   "property": "C86",
   "status": "proved",
   "theorems": [
    "Shr.C86_read",
    "Shr.C86_write"
   ],
   "note": "shr_write on an unbuffered handle; on a buffered one it is C26/C88"
  },
  {
   "property": "C87",
   "status": "proved",
   "theorems": [
    "Shr.C87_words",
    "Shr.C87_commands",
    "Shr.C87_size",
    "Shr.C87_options_accepted",
    "Shr.C87_options",
    "Shr.C87_accepted",
    "Shr.C87_refused"
   ],
   "note": "getopt as glibc's without POSIXLY_CORRECT"
  },
  {
   "property": "C88",
   "status": "proved",
   "theorems": [
    "Shr.C88_held_back",
    "Shr.C88_holds"
   ],
   "note": ""
  },
  {
   "property": "C89",
   "status": "proved",
   "theorems": [
    "Shr.C89_open_succeeds",
    "Shr.C89_open_holds",
    "Shr.C89_init"
   ],
   "note": ""
  },
  {
   "property": "C90",
   "status": "proved",
   "theorems": [
    "Shr.C90_number",
    "Shr.C90_as_size",
    "Shr.C90_address"
   ],
   "note": "the exact companion of C65, which is false as stated"
  },
  {
   "property": "C91",
   "status": "proved",
   "theorems": [
    "Shr.C91_bytes",
    "Shr.C91_crash"
   ],
   "note": "the exact companion of C47, which is false as stated"
  },
  {
   "property": "C92",
   "status": "proved",
   "theorems": [
    "Shr.C92_write",
    "Shr.C92_read"
   ],
   "note": "writes on unbuffered handles; for buffered ones see C94"
  },
  {
   "property": "C93",
   "status": "proved",
   "theorems": [
    "Shr.C93_data",
    "Shr.C93_shape"
   ],
   "note": ""
  },
  {
   "property": "C94",
   "status": "proved",
   "theorems": [
    "Shr.C94_same"
   ],
   "note": "flushes without waiting; if a wake-up or msync fails the claim is false (C26_counterexample)"
  },
  {
   "property": "C95",
   "status": "proved",
   "theorems": [
    "Shr.C95_accepted",
    "Shr.C95_never_seen",
    "Shr.C95_aborts"
   ],
   "note": "the later calls on the handle itself: all but shr_stat and shr_appdata, which do not touch messages"
  },
  {
   "property": "C96",
   "status": "proved",
   "theorems": [
    "Shr.C96_one_log",
    "Shr.C96_reads_are_pieces",
    "Shr.C96_write_is_present",
    "Shr.C96_no_undefined_behaviour",
    "Shr.C96_readers_complete",
    "Shr.C96_writers_may_abort",
    "Shr.C96_torn_eldest_misleads"
   ],
   "note": "the deaths of C31-C33, for the farm rings those leave out; the last two theorems show that the named limits are real; a call that never returns (drop loop on a ring that contradicts itself) counts as killed before its stores"
  },
  {
   "property": "C97",
   "status": "proved",
   "theorems": [
    "Shr.C97_goes_on",
    "Shr.C97_calls_keep_order",
    "Shr.C97_lookers_harmless",
    "Shr.C97_writer_points"
   ],
   "note": "the counterpart of C33_survivors, C33_writer_points for farm rings; C96_writers_may_abort shows what happens otherwise"
  },
  {
   "property": "C98",
   "status": "proved",
   "theorems": [
    "Shr.C98_only_readers_wait",
    "Shr.C98_no_endless_run",
    "Shr.C98_rest_is_read",
    "Shr.C98_all_read",
    "Shr.C98_rest_is_reached"
   ],
   "note": "C83 for farm rings; clean histories as in C34; the messages are counted as in C12 (number of calls times messages offered below 2^64)"
  },
  {
   "property": "C99",
   "status": "proved",
   "theorems": [
    "Shr.C99_wake_reached",
    "Shr.C99_wake_succeeds",
    "Shr.C99_wait_woken",
    "Shr.C99_wait_gives_up",
    "Shr.C99_signal_is_error",
    "Shr.C99_harmless",
    "Shr.C99_leftover",
    "Shr.C99_make",
    "Shr.C99_make_fails",
    "Shr.C99_counterexample_signal",
    "Shr.C99_counterexample_error"
   ],
   "note": "clean calls as in C40; the two C99_counterexample theorems show that the exceptions named in the statement are real"
  }
 ]
}