#!/usr/bin/env python3
"""Writes MANIFEST.json.  Theorem names live in namespace Shr."""
import json, os, sys
P, Q, N = "proved", "partial", "not_applicable"
C = {
 "C01": (P, "C01_fifo_exactly_once C01_fifo_any_failures C01_delivered_prefix C01_drained C26_order_preserved", "for every history of a consuming ring; second theorem without any assumption on wake/msync failures; C26_order_preserved is the version with buffered writers"),
 "C02": (P, "C02_round_trip C13_subsequence C14_farm_reader_sees_all_or_counts", ""),
 "C03": (Q, "C03_batch_is_atomic C03_all_or_nothing_partial C03_counterexample", "false as stated in English: when the wake-up (or msync in SYNC mode) fails after the commit the write returns -1 although its messages are in the ring; the counterexample is proved, and all-or-nothing is proved when these succeed"),
 "C04": (P, "C04_nonblocking_write_refuses_iff", ""),
 "C05": (P, "C05_capacity C05_stat_reports_unread", ""),
 "C06": (P, "C06_invalid_write_rejected", ""),
 "C07": (Q, "C07_first_empty_rejected_partial C07_counterexample", "false as stated: an empty element after a nonempty one passes the argument check and aborts the process at the assertion inside the critical section"),
 "C08": (P, "C08_drained_ring_accepts C08_exact_fit", ""),
 "C09": (P, "C09_longest_prefix", ""),
 "C10": (P, "C10_message_left_in_place", ""),
 "C11": (P, "C11_zero_iff_nothing_unread", ""),
 "C12": (P, "C12_drop_write C12_drop_any_write C12_drop_flush C12_drop_close", "direct writes, writes on buffered handles, flush and close"),
 "C13": (P, "C13_delivered_or_counted C13_subsequence C13_buffered", "unbuffered writers under any failures; any mixture of writers if wake-ups and msync succeed"),
 "C14": (P, "C14_farm_reader_sees_all_or_counts C14_drained C14_nothing_missed", ""),
 "C15": (P, "C15_farm_readers_independent", ""),
 "C16": (P, "C16_new_reader_starts_at_oldest C16_retention C16_every_call C16_history", ""),
 "C17": (Q, "C17_conservation_partial C17_reset C17_period_partial C17_counterexample", "false as stated if a wake-up fails: the messages of that write are in the ring but not counted (proved); true for all histories in which wake-ups and msync succeed"),
 "C18": (P, "C18_no_fault C18_bytes_in_bounds C18_copy_in_bounds C18_cache_in_bounds C18_slots_in_bounds C18_assert C18_counterexample_both_modes", "valid arguments exclude opening with both modes, which the library accepts by mistake and which makes reads abort (second theorem)"),
 "C19": (Q, "C19_layout_partial C19_ctrl_layout C19_members C19_store C19_fixed_bytes C19_every_store C19_counterexample C19_flag_values", "false as stated when the sizes overflow size_t (proved); true for all sizes that do not"),
 "C20": (Q, "C20_invalid_arguments C20_keepexist C20_replaces C20_failure C20_attributes_partial C20_counterexample_appdata", "false as stated for one attribute: SHR_APPDATA is never reported (proved); sizes that overflow are excluded (C19)"),
 "C21": (P, "C21_fresh_ring_opens", ""),
 "C22": (P, "C22_persists C22_counterexample_cached C30_close", "the counterexample shows why handles with cached messages are excluded"),
 "C23": (Q, "C23_modes_partial C23_counterexample C18_counterexample_both_modes", "false as stated: the check accepts RDONLY|WRONLY together, and reads on such a handle abort"),
 "C24": (Q, "C24_validated_partial C24_counterexample", "false as stated: the size sum can be negative as ssize_t, and e, m, mp are not checked"),
 "C25": (Q, "C25_unaffected_by_traffic C25_register C25_call_partial C25_counterexample_overread C25_counterexample_ignored", "false as stated for two argument combinations, which are proved as counterexamples"),
 "C26": (Q, "C26_order_preserved C26_counterexample", "holds while wake-ups and msync succeed; if one fails after a flush committed, the cache is written twice (proved)"),
 "C27": (P, "C27_cache_bounds C27_flush_to_drained_ring C27_flush_all_or_nothing C12_drop_flush", ""),
 "C28": (Q, "C28_refused_write_leaves_nothing_partial C28_counterexample", "false as stated if the call returns -1 because the wake-up or msync failed after the commit (proved); true otherwise"),
 "C29": (P, "C29_mode_unchanged", ""),
 "C30": (P, "C30_close C30_discard_changes_nothing_else", ""),
 "C31": (P, "C31_linearizable C31_no_deadlock C31_mutual_exclusion C31_fifo_exactly_once C31_buffered_write_splits", "processes interleave single loads and stores; a buffered write that must flush first is two calls"),
 "C32": (P, "C32_killed_writer C32_indistinguishable", ""),
 "C33": (Q, "C33_status_calls_partial C33_survivors_partial C33_survivors_deliver_partial C33_indistinguishable_partial C33_as_if_never_partial C33_as_if_completed_partial C33_writer_points_partial C33_reader_points_partial C33_counterexample_writer C33_counterexample_reader C33_counterexample_unopenable", "false as stated for processes killed between two related stores of a read or write (proved); true for the other calls, and for every death, in any number, that leaves the control block consistent: then the ring is fully usable and nobody can tell; which points these are is proved"),
 "C34": (Q, "C34_blocked_reader_partial C34_successful_write_wakes C34_counterexample_failed_wake C40_counterexample_name_reuse", "false as stated if bw_wake fails (the write then returns -1 with its messages committed; proved) or the writer is killed before it (C85), until the next successful write, or if the kernel reuses a name; proved for every schedule otherwise, with processes killed inside calls, and every successful write leaves a wake-up at every open reader whatever failed before"),
 "C35": (Q, "C35_blocked_writer_partial C35_counterexample_failed_wake", "false as stated if the reader's bw_wake fails, which it ignores (proved), or the reader is killed before it, until the next successful one; proved for every schedule otherwise, with processes killed inside calls"),
 "C36": (Q, "C36_available_implies_readable_partial C36_drained_is_not_readable_partial C36_counterexample_failed_wake C36_counterexample_failed_force C36_counterexample_farm_name", "false as stated: as C34 for the first part; a failed bw_force leaves the descriptor readable, and on a farm ring a read by another reader can make it readable if the socket got the name of a dead waiter (both proved); proved for every schedule otherwise (second part: no reads by others on a farm ring; deaths of others also inside calls)"),
 "C37": (P, "C37_selectable_fd C37_otherwise_minus_one", ""),
 "C38": (P, "C38_bounded C38_slots_exclusive C38_65th_fails C38_close_frees C38_recycled C38_room", "under the stated assumption on the kernel"),
 "C39": (P, "C39_wake_reaches_all C39_counterexample_undetermined", "under the stated assumption on the kernel; the second theorem shows when bw_wake fails"),
 "C40": (Q, "C40_waiters_are_registered_partial C40_never_evicted_partial C40_evicted_iff C40_evictor C40_evicted_for_good C40_counterexample_name_reuse C40_counterexample_send_error C40_counterexample_close", "false as stated: a reused socket name or a hard send error evicts a live waiter, and then the close of the evicted one evicts the next (all proved); true if neither happens; C40_evicted_iff: after any history, exactly these steps evict; eviction is for good"),
 "C41": (P, "C41_scan_exact C41_no_is_true C41_yes_is_true C41_values C41_definite C41_long_path C41_nameless_row_blocks_no C41_refines_bw C41_counterexample_nameless", "sound for every table; the last theorems show that one nameless socket in the table makes it indeterminate"),
 "C42": (P, "C42_get_col_iff C42_get_col_found C42_get_col_fails_iff", ""),
 "C43": (P, "C43_total_is_exact C43_oversize_rejected", ""),
 "C44": (P, "C44_interrupted_write_no_effect C44_interrupted_read_no_effect C44_interrupted_buffered_write C44_interrupted_flush C69_no_room", ""),
 "C45": (P, "C45_subscriber C45_all_received C45_publisher C45_end_to_end C45_counterexample_short_prefix", "while the ring takes what the subscriber hands over; the last theorem: a short write of the four prefix bytes aborts the publisher (it does not corrupt the stream)"),
 "C46": (Q, "C46_received_partial C46_counterexample_large C46_counterexample_batch", "false as stated: a message of more than 999996 bytes aborts the subscriber, and messages that arrive together must fit into the ring together (both proved)"),
 "C47": (Q, "C47_roundtrip C47_rejects C47_no_crash_partial C47_counterexample_minus C47_accepts_other_text", "false as stated: '-1' crashes the tool (proved); without a minus sign it does not crash"),
 "C48": (P, "C48_hexdump C48_injective", ""),
 "C49": (Q, "C49_whole_write_partial C49_counterexample_short_write C49_counterexample_failed_write C49_failing_write_loops C49_pieces", "false as stated: after a short write the beginning is printed again, and a failed write is not noticed (proved)"),
 "C50": (Q, "C50_tee_partial C50_stops_only C50_counterexample", "false as stated: if a write to one of the rings fails, the message that was taken is lost for it (proved); true until then, and the only way to stop is proved"),
 "C51": (P, "C51_size C51_exact C51_negative_accepted", ""),
 "C60": (P, "C60_lines C60_last_line C60_written_to_ring C60_long_line_split C60_nul_truncates", "the last two show what happens outside of the limits"),
 "C52": (P, "C52_creation_is_atomic", ""),
 "C53": (Q, "C53_killed_creator_partial C53_counterexample", "false as stated: a creator killed between storing the magic and the flags or app data leaves a ring that opens without them (proved)"),
 "C54": (Q, "C54_failed_open_partial C54_counterexample_malloc C54_counterexample_sync", "false as stated: failure of the cache allocation or of msync leaks the waiter slot (both proved); proved for all other failures"),
 "C55": (P, "C55_waits_on_own_handle C55_no_fault", "whatever system calls fail, and with processes killed inside calls"),
 "C56": (Q, "C56_no_deadlock_partial C35_counterexample_failed_wake", "as C34 and C35"),
 "C57": (Q, "C57_close_releases C57_counterexample_lock", "false as stated if shr_close cannot lock the file (proved)"),
 "C58": (P, "C58_slurp_whole C58_slurp_terminates", ""),
 "C59": (P, "C59_name_round_trip C59_names_injective C59_terminated C59_long_name_aborts", ""),
 "C61": (Q, "C61_mode_letters C61_create_partial C61_max_exact C61_counterexample_appdata C61_counterexample_hugepages", "false as stated: status does not list app data among the attributes, and -H is taken for -N (both proved); all else proved"),
 "C62": (Q, "C62_status_partial C62_counterexample_counter C62_large_counters C61_counterexample_appdata", "false as stated for counters from 2^63 on, which are printed as negative numbers (proved); true below"),
 "C63": (Q, "C63_pub_partial C63_taken_for_client C63_polled C63_polls_iff C63_one_client C63_counterexample", "false as stated: the message being sent when the client goes away is lost (proved); all else proved"),
 "C64": (P, "C64_prints_what_it_takes C64_stops_only", ""),
 "C65": (Q, "C65_port_range C65_address_partial C65_counterexample_wrap C65_counterexample_text", "false as stated: numbers are taken modulo 2^32 and text behind the number is ignored (both proved); true for numbers below 2^31"),
 "C66": (Q, "C66_only_added C66_interrupts_partial C66_read_returns C66_write_returns C66_unknown_flag C66_other_handles C66_counterexample", "false as stated for buffered writers opened with SHR_NONBLOCK: shr_ctl returns 0 without effect, and shr_flush(s,1) later waits (proved); true for readers and blocking writers"),
 "C67": (P, "C67_delegate_path C67_parent_path C67_overrun", ""),
 "C68": (P, "C68_ring_to_ring C68_stops_only", ""),
 "C69": (P, "C69_refused C69_no_room C69_abort C69_written C69_aborts_iff", "elements of at most SSIZE_MAX bytes (larger ones: C43)"),
 "C70": (P, "C70_reference_semantics", ""),
 "C71": (P, "C71_opens_iff C71_reason", ""),
 "C72": (P, "C72_ring_file_usable C72_library_leaves_ring_files", ""),
 "C73": (P, "C73_in_range C73_torn_header_accepted C73_opens_any_time", ""),
 "C74": (P, "C74_killed_creator C74_usable", ""),
 "C75": (P, "C75_own_files C75_returned_zero C75_opener C75_all_returned C75_one_creator C75_keepexist_counterexample C75_vanish_counterexample", "the two counterexamples show what the property says is not promised"),
 "C76": (Q, "C76_held_partial C76_all_closed_partial C76_open_failed_partial C76_init C76_handle_bound C76_counterexamples", "false as stated: six kinds of failures lose something, each with a counterexample; proved without them (ROp.Clean); the bound and shr_init hold without restriction"),
 "C77": (P, "C77_never_twice C77_monitor", "ledger model of all calls, every outcome of every system call inside; threads sharing a handle are outside"),
 "C78": (Q, "C78_create C78_create_ends C78_write C78_writehex C78_writefile C79_mount C78_status_partial C78_status_exact C78_loops C78_read C78_counterexample_status C78_counterexample_query C78_counterexample_read", "false as stated for status -A, mount -q and the commands with an event loop, which exit with 255 also on success (all proved); proved for create, write, writehex, writefile, mount and status without -A"),
 "C80": (P, "C80_any_stream C80_frames_unique C80_empty_frame_kills", "the second theorem shows that the description determines the messages; the third that an empty frame behind a nonempty one kills the subscriber while it holds the lock"),
 "C81": (P, "C81_confirmed C81_unsynced C81_power_failure C81_accepted C81_counterexample_read", "disk blocks of any size that is a multiple of 8 and holds the control block are written whole; the bw slot bytes are not in the file model; shr_init does not msync, so nothing is promised before the first confirmed call"),
 "C82": (Q, "C82_during_read C82_during_stat C82_during_appdata C82_during_write_partial C82_counterexample_torn_write C82_counterexample_torn_drop", "false as stated for writes: the index entry may be on the disk without the data (a message read long ago is read again), and in DROP mode a confirmed message may be replaced by one nobody wrote; proved: old messages stay in front, the number of messages behind them, and exactness if the count had not reached the disk"),
 "C83": (P, "C83_no_endless_run C83_rest_is_empty C83_all_delivered C83_rest_is_reached", "an eager step either succeeds in its block/wake calls or is excluded; the first theorem allows wake-ups to fail"),
 "C84": (P, "C84_points_end_in_step C84_others_keep_everything C84_other_wakers_stay C84_dead_is_gone C84_waiters_are_registered C84_slots_exclusive C84_wake_reaches_all C84_nobody_is_locked_out C84_counterexample_half_woken", "for clean histories as in C38-C40 (their counterexamples are the two ways to be unclean); the last theorem is the limit named in the property"),
 "C85": (P, "C85_others_unharmed C85_victim_is_gone C85_ring_works C85_next_wake_makes_up C34_successful_write_wakes C85_counterexample_no_wake", "clean histories as in C34; the last theorem is the limit named in the property"),
 "C86": (P, "C86_read C86_write", "shr_write on an unbuffered handle; on a buffered one it is C26/C88"),
 "C87": (P, "C87_words C87_commands C87_size C87_options_accepted C87_options C87_accepted C87_refused", "getopt as glibc's without POSIXLY_CORRECT"),
 "C88": (P, "C88_held_back C88_holds", ""),
 "C89": (P, "C89_open_succeeds C89_open_holds C89_init", ""),
 "C90": (P, "C90_number C90_as_size C90_address", "the exact companion of C65, which is false as stated"),
 "C91": (P, "C91_bytes C91_crash", "the exact companion of C47, which is false as stated"),
 "C92": (P, "C92_write C92_read", "writes on unbuffered handles; for buffered ones see C94"),
 "C93": (P, "C93_data C93_shape", ""),
 "C94": (P, "C94_same", "flushes without waiting; if a wake-up or msync fails the claim is false (C26_counterexample)"),
 "C95": (P, "C95_accepted C95_never_seen C95_aborts", "the later calls on the handle itself: all but shr_stat and shr_appdata, which do not touch messages"),
 "C96": (P, "C96_one_log C96_reads_are_pieces C96_write_is_present C96_no_undefined_behaviour C96_readers_complete C96_writers_may_abort C96_torn_eldest_misleads", "the deaths of C31-C33, for the farm rings those leave out; the last two theorems show that the named limits are real; a call that never returns (drop loop on a ring that contradicts itself) counts as killed before its stores"),
 "C97": (P, "C97_goes_on C97_calls_keep_order C97_lookers_harmless C97_writer_points", "the counterpart of C33_survivors, C33_writer_points for farm rings; C96_writers_may_abort shows what happens otherwise"),
 "C98": (P, "C98_only_readers_wait C98_no_endless_run C98_rest_is_read C98_all_read C98_rest_is_reached", "C83 for farm rings; clean histories as in C34; the messages are counted as in C12 (number of calls times messages offered below 2^64)"),
 "C99": (P, "C99_wake_reached C99_wake_succeeds C99_wait_woken C99_wait_gives_up C99_signal_is_error C99_harmless C99_leftover C99_make C99_make_fails C99_counterexample_signal C99_counterexample_error", "clean calls as in C40; the two C99_counterexample theorems show that the exceptions named in the statement are real"),
 "C100": (P, "C100_conservation_any_failures C100_uncounted_only_after_failure C100_conservation_without_errors", "which messages a call put in and which of them are not counted: Spec/Failures.lean, WriteDid, FlushDid, CloseDid, Story"),
 "C101": (P, "C101_story C101_nothing_accepted_is_lost C101_nothing_invented C101_exact_without_errors", ""),
 "C102": (P, "C102_overtaken C102_reader_overtaken C69_no_room C69_written", "what a single attempt does: the theorems of C69"),
 "C103": (P, "C103_stores C103_bounded", "counted are the stores before which a caller can be killed (Sys.points), one byte of a copy at a time"),
 "C104": (Q, "C104_not_a_ramdisk C104_unbounded C104_tmpfs_partial C104_counterexample_unlimited C104_counterexample_huge C104_counterexample_status C78_counterexample_query", "false as stated: for a tmpfs mounted with size=0 the percentage is 0.0/0.0 converted to int; from 2^63 bytes on the size is negative; the exit status is 0 in any case. The percentage is computed with exact numbers instead of doubles"),
 "C105": (P, "C105_no_wild_access C105_only_overread C105_file_in_range C105_reads_stay_in_the_buffer", "the state at a death is any of Sys.points, the states between the stores of a call; arguments: Op.Fair"),
 "C106": (P, "C106_no_spin", "waiting for the lock or in bw_wait_ul is not spinning"),
 "C107": (P, "C107_file C107_opens_iff", "that the one check can fail: C33_counterexample_unopenable"),
 "C108": (P, "C108_data C108_data_fault C108_shape C108_no_invention C108_file_bytes", "C93 says the first for valid histories, where zero may be replaced too"),
 "C109": (P, "C109_touches C109_completed C109_reader_close C109_lasts", ""),
 "C79": (P, "C79_mount C79_unknown_is_mounted", "getopt and the kernel's idea of a mount point are outside; the second theorem shows the limit of the check for a ramdisk"),
}
here = os.path.dirname(os.path.abspath(__file__))
claims = []
for i in sorted(C):
    st, th, note = C[i]
    claims.append({"property": i, "status": st, "theorems": ["Shr." + t for t in th.split()], "note": note})
json.dump({"claims": claims}, open(os.path.join(here, "..", "MANIFEST.json"), "w"), indent=1)
print(len(claims), "claims")
