{
 "claims": [
  {
   "property": "C01",
   "status": "proved",
   "theorems": [
    "Mortal.C01_finite_map"
   ],
   "note": ""
  },
  {
   "property": "C02",
   "status": "proved",
   "theorems": [
    "Mortal.C02_sequences_sorted"
   ],
   "note": ""
  },
  {
   "property": "C03",
   "status": "proved",
   "theorems": [
    "Mortal.C03_find_classifies",
    "Mortal.C03_classification_unique",
    "Mortal.C03_cloned_same"
   ],
   "note": ""
  },
  {
   "property": "C04",
   "status": "proved",
   "theorems": [
    "Mortal.C04_from_vec_first",
    "Mortal.C04_collect_last"
   ],
   "note": ""
  },
  {
   "property": "C05",
   "status": "proved",
   "theorems": [
    "Mortal.C05_contains_iff_mem",
    "Mortal.C05_eq_iff_same_members",
    "Mortal.C05_containsAll_iff",
    "Mortal.C05_isEmpty_iff",
    "Mortal.C05_intersects_iff"
   ],
   "note": ""
  },
  {
   "property": "C06",
   "status": "proved",
   "theorems": [
    "Mortal.C06_debug_text",
    "Mortal.C06_names_are_members",
    "Mortal.C06_debug_injective"
   ],
   "note": ""
  },
  {
   "property": "C07",
   "status": "proved",
   "theorems": [
    "Mortal.C07_isCtrl_iff",
    "Mortal.C07_ctrl_unctrl",
    "Mortal.C07_ctrl_letter",
    "Mortal.C07_ctrl_any",
    "Mortal.C07_unctrl_any",
    "Mortal.C07_key_of_char",
    "Mortal.C07_keyOf_unique",
    "Mortal.C07_key_injective",
    "Mortal.C07_no_upper_ctrl"
   ],
   "note": ""
  },
  {
   "property": "C08",
   "status": "proved",
   "theorems": [
    "Mortal.C08_prefixes",
    "Mortal.C08_prefixes_exact"
   ],
   "note": ""
  },
  {
   "property": "C09",
   "status": "proved",
   "theorems": [
    "Mortal.C09_next_walks_all",
    "Mortal.C09_rowMajor_exact",
    "Mortal.C09_next_previous",
    "Mortal.C09_outOfBounds_iff",
    "Mortal.C09_area"
   ],
   "note": ""
  },
  {
   "property": "C10",
   "status": "partial",
   "theorems": [
    "Mortal.C10_draw_total_partial",
    "Mortal.C10_wide_on_one_column_panics",
    "Mortal.C10_newline_at_limit_panics",
    "Mortal.C10_panics_iff",
    "Mortal.C10_sound"
   ],
   "note": "The exact condition for a panic is proved for every history (C10_panics_iff): a line number beyond the usize range, or a two-column character on the last but one line of a one-column screen; both occur (C10_wide_on_one_column_panics, C10_newline_at_limit_panics)."
  },
  {
   "property": "C11",
   "status": "proved",
   "theorems": [
    "Mortal.C11_plain_text",
    "Mortal.C11_others_untouched",
    "Mortal.C11_styled_text"
   ],
   "note": ""
  },
  {
   "property": "C12",
   "status": "partial",
   "theorems": [
    "Mortal.C12_any_text_partial",
    "Mortal.C12_cut_exactly",
    "Mortal.C12_write_at_outside",
    "Mortal.C12_text_cut_off_partial",
    "Mortal.C12_below_last_line",
    "Mortal.C12_wide_excess_overwrites"
   ],
   "note": "Proved for single-width text, to the last field (C12_cut_exactly). For any text (C12_any_text_partial): what precedes the first character without a place is written, what follows has no effect; the one way it goes wrong is a two-column character with only the last cell left, which is written into that cell all the same (C12_wide_excess_overwrites), and exactly what changes then is proved."
  },
  {
   "property": "C13",
   "status": "proved",
   "theorems": [
    "Mortal.C13_carriage_return",
    "Mortal.C13_newline",
    "Mortal.C13_invisible",
    "Mortal.C13_tab",
    "Mortal.C13_tab_outside"
   ],
   "note": ""
  },
  {
   "property": "C14",
   "status": "partial",
   "theorems": [
    "Mortal.C14_wide_fits",
    "Mortal.C14_never_torn_partial",
    "Mortal.C14_wrap_duplicates",
    "Mortal.C14_resize_tears",
    "Mortal.C14_wrap_exact"
   ],
   "note": "Proved for histories in which no two-column character is written with a single column left and no resize cuts one; both excluded cases tear characters (C14_wrap_duplicates, C14_resize_tears). Exactly which cells change in the first of them is proved (C14_wrap_exact)."
  },
  {
   "property": "C15",
   "status": "partial",
   "theorems": [
    "Mortal.C15_marks_attach_partial",
    "Mortal.C15_ignored_at_origin",
    "Mortal.C15_wide_base_misses",
    "Mortal.C15_wide_base_exact"
   ],
   "note": "Proved for one-column base characters; refuted after two-column ones (C15_wide_base_misses). There the marks go to the blank right half, and nothing else changes (C15_wide_base_exact)."
  },
  {
   "property": "C16",
   "status": "partial",
   "theorems": [
    "Mortal.C16_attributes_follow_partial",
    "Mortal.C16_cells",
    "Mortal.C16_styled_cells",
    "Mortal.C16_at_cells",
    "Mortal.C16_overflow_leaks",
    "Mortal.C16_attributes_exact",
    "Mortal.C16_from_new"
   ],
   "note": "Attributes of every cell written proved without restriction (C16_cells, C16_styled_cells); attributes in force proved for histories without a styled write running past the end of the screen, refuted otherwise (C16_overflow_leaks). With such writes included, the attributes after any history are proved too (C16_attributes_exact)."
  },
  {
   "property": "C17",
   "status": "partial",
   "theorems": [
    "Mortal.C17_resize",
    "Mortal.C17_repaints_partial",
    "Mortal.C17_cut_refuted",
    "Mortal.C17_win_repaints_partial"
   ],
   "note": "The resize itself is proved without restriction; the repaint after it for buffers without torn two-column characters, refuted otherwise (C17_cut_refuted)."
  },
  {
   "property": "C18",
   "status": "partial",
   "theorems": [
    "Mortal.C18_narrow_partial",
    "Mortal.C18_wide_partial",
    "Mortal.C18_refresh_returns",
    "Mortal.C18_stale_refuted",
    "Mortal.C18_cursor_refuted",
    "Mortal.C18_line_end_refuted",
    "Mortal.C18_wide_exact",
    "Mortal.C18_wide_iff"
   ],
   "note": "Proved for all sessions drawing one-column characters. With two-column characters the screen is described exactly, also when it is wrong: C18_wide_exact gives the picture of every cell, and C18_wide_iff says the terminal shows the buffer if and only if no cell was stale (uncovered with the content it was last drawn with). Refuted in general (C18_stale_refuted, C18_cursor_refuted, C18_line_end_refuted). Left out: two-column characters cut by the line end, and stale cells that are to hold a two-column character."
  },
  {
   "property": "C19",
   "status": "proved",
   "theorems": [
    "Mortal.C19_second_refresh_silent",
    "Mortal.C19_only_changed",
    "Mortal.C19_win_second_refresh_silent",
    "Mortal.C19_win_only_changed"
   ],
   "note": ""
  },
  {
   "property": "C20",
   "status": "partial",
   "theorems": [
    "Mortal.C20_exact",
    "Mortal.C20_each_refresh",
    "Mortal.C20_wrong_only_if_lost",
    "Mortal.C20_lost_stays",
    "Mortal.C20_repair_partial",
    "Mortal.C20_lost_cell_refuted"
   ],
   "note": "The claim is refuted (C20_lost_cell_refuted). What remains true is proved: at most one wrong cell per failed refresh since the last resize (C20_repair_partial). What the terminal shows after any session with failed refreshes is described exactly (C20_exact), every wrong cell is one a failed refresh ended at (C20_wrong_only_if_lost), and such a cell stays as it is (C20_lost_stays). All for sessions without two-column characters."
  },
  {
   "property": "C21",
   "status": "proved",
   "theorems": [
    "Mortal.C21_call",
    "Mortal.C21_attributes_follow",
    "Mortal.C21_calls_succeed"
   ],
   "note": ""
  },
  {
   "property": "C22",
   "status": "proved",
   "theorems": [
    "Mortal.C22_calls_return",
    "Mortal.C22_redundant_silent",
    "Mortal.C22_repeat_silent"
   ],
   "note": ""
  },
  {
   "property": "C23",
   "status": "partial",
   "theorems": [
    "Mortal.C23_flush_ok_iff",
    "Mortal.C23_flush_err_iff",
    "Mortal.C23_flush_panics_iff",
    "Mortal.C23_flush_waits_iff",
    "Mortal.C23_kept_iff_partial",
    "Mortal.C23_large_text",
    "Mortal.C23_in_order_partial",
    "Mortal.C23_text_partial",
    "Mortal.C23_short_write_repeats",
    "Mortal.C23_short_write_never_succeeds"
   ],
   "note": "Proved when the OS never accepts only part of a write; refuted for short writes (the code resends the buffer from its start), see C23_short_write_*. For all answers of write(2) exactly when a flush succeeds, fails, panics or does not return, and what was sent and kept, is proved (C23_flush_*_iff, C23_kept_iff_partial, C23_large_text)."
  },
  {
   "property": "C24",
   "status": "partial",
   "theorems": [
    "Mortal.C24_calls_flush",
    "Mortal.C24_screen_flush",
    "Mortal.C24_exclusive",
    "Mortal.C24_contiguous_partial",
    "Mortal.C24_win_exclusive",
    "Mortal.C24_flush_empties",
    "Mortal.C24_drop_flushes"
   ],
   "note": "Flush and drop proved for all states; exclusivity of a guard session proved for all interleavings; contiguity of bytes on the device needs the absence of short writes (see C23). Every call that takes the lock for itself, on a terminal or a screen, passes on all it wrote whether it succeeds or fails."
  },
  {
   "property": "C25",
   "status": "proved",
   "theorems": [
    "Mortal.C25_bytes_once"
   ],
   "note": ""
  },
  {
   "property": "C26",
   "status": "proved",
   "theorems": [
    "Mortal.C26_terminal_table",
    "Mortal.C26_longest_key",
    "Mortal.C26_first_char"
   ],
   "note": ""
  },
  {
   "property": "C27",
   "status": "proved",
   "theorems": [
    "Mortal.C27_text"
   ],
   "note": ""
  },
  {
   "property": "C28",
   "status": "partial",
   "theorems": [
    "Mortal.C28_report",
    "Mortal.C28_no_panic_partial",
    "Mortal.C28_zero_coordinate_panics"
   ],
   "note": "Decoding proved for every report; freedom from panics characterised exactly: only a coordinate 0 panics (C28_zero_coordinate_panics)."
  },
  {
   "property": "C29",
   "status": "partial",
   "theorems": [
    "Mortal.C29_text_chunks_partial",
    "Mortal.C29_text_completes_partial",
    "Mortal.C29_split_sequence",
    "Mortal.C29_pieces_partial",
    "Mortal.C29_pieces_complete_partial",
    "Mortal.C29_same_events_partial",
    "Mortal.C29_turns",
    "Mortal.C29_chunks_decide",
    "Mortal.C29_cut_exact"
   ],
   "note": "Proved for every stream of characters, key sequences and mouse reports, and any chunking that does not end a read inside a sequence or report (C29_pieces_partial); for text any chunking at all (C29_text_chunks_partial). Refuted for a key sequence split between reads (C29_split_sequence). For every chunking, exactly what each read makes of what has arrived is proved (C29_turns, C29_chunks_decide): a sequence or report that is cut is reported character by character (C29_cut_exact)."
  },
  {
   "property": "C30",
   "status": "partial",
   "theorems": [
    "Mortal.C30_unfinished_waits",
    "Mortal.C30_completed",
    "Mortal.C30_ill_formed_error",
    "Mortal.C30_cases",
    "Mortal.C30_raw_recovers_partial",
    "Mortal.C30_read_event_stuck"
   ],
   "note": "Classification proved for every byte string; recovery proved through read_raw, refuted through read_event alone (C30_read_event_stuck)."
  },
  {
   "property": "C31",
   "status": "partial",
   "theorems": [
    "Mortal.C31_one_place",
    "Mortal.C31_fate_partial",
    "Mortal.C31_at_most_once",
    "Mortal.C31_latest_first",
    "Mortal.C31_latest_first_raw",
    "Mortal.C31_not_lost_partial",
    "Mortal.C31_signal_lost"
   ],
   "note": "Order, no invention and no repetition proved for every history; delivery proved unless another signal arrives first, refuted in that case (C31_signal_lost). Exactly what becomes of each signal is proved: the terminal is one place for a signal (C31_one_place, C31_fate_partial)."
  },
  {
   "property": "C32",
   "status": "partial",
   "theorems": [
    "Mortal.C32_window",
    "Mortal.C32_already_pending",
    "Mortal.C32_interrupted",
    "Mortal.C32_false_partial",
    "Mortal.C32_missed_wakeup"
   ],
   "note": "Wake-up proved for signals before the first check and during select; refuted for the window between check and select (C32_missed_wakeup). Every signal in that window is missed (C32_window)."
  },
  {
   "property": "C33",
   "status": "proved",
   "theorems": [
    "Mortal.C33_resize",
    "Mortal.C33_reported_iff",
    "Mortal.C33_continue",
    "Mortal.C33_continue_idle",
    "Mortal.C33_read_resize"
   ],
   "note": ""
  },
  {
   "property": "C34",
   "status": "partial",
   "theorems": [
    "Mortal.C34_not_put_back",
    "Mortal.C34_modes_after",
    "Mortal.C34_nested_partial",
    "Mortal.C34_history",
    "Mortal.C34_device_modes_partial",
    "Mortal.C34_report_not_restored",
    "Mortal.C34_inner_disables_mouse"
   ],
   "note": "Modes, handlers and the remembered configuration proved restored for any nesting; the set of signals to report and inner mouse/keypad modes refuted (C34_report_not_restored, C34_inner_disables_mouse). What these are instead is proved exactly (C34_not_put_back, C34_modes_after)."
  },
  {
   "property": "C35",
   "status": "proved",
   "theorems": [
    "Mortal.C35_prepare_establishes",
    "Mortal.C35_default"
   ],
   "note": ""
  },
  {
   "property": "C36",
   "status": "partial",
   "theorems": [
    "Mortal.C36_how_far",
    "Mortal.C36_failed_prepare_partial",
    "Mortal.C36_first_steps_partial",
    "Mortal.C36_failed_prepare_changes"
   ],
   "note": "That a failed prepare changes nothing is refuted (C36_failed_prepare_changes). Exactly how far it gets is proved (C36_how_far): nothing, or the modes and the first few handlers."
  },
  {
   "property": "C37",
   "status": "partial",
   "theorems": [
    "Mortal.C37_how_far",
    "Mortal.C37_failed_new_how_far",
    "Mortal.C37_session_partial",
    "Mortal.C37_open",
    "Mortal.C37_failed_new_partial",
    "Mortal.C37_exit_skipped",
    "Mortal.C37_modes_kept",
    "Mortal.C37_failed_new_raw",
    "Mortal.C37_zero_lines_panics"
   ],
   "note": "Proved when no system call fails during the drop; refuted otherwise: exit_screen is skipped when restore fails, a failed write keeps raw mode, a failed prepare in Screen::new leaves raw mode, zero lines panic. With failures of any kind, exactly what is put back is proved (C37_how_far, C37_failed_new_how_far)."
  },
  {
   "property": "C38",
   "status": "partial",
   "theorems": [
    "Mortal.C38_no_deadlock_partial",
    "Mortal.C38_progress_partial",
    "Mortal.C38_read_event_deadlocks",
    "Mortal.C38_wrong_order_deadlocks",
    "Mortal.C38_deadlock_iff",
    "Mortal.C38_win_deadlock_iff",
    "Mortal.C38_for_ever",
    "Mortal.C38_win_for_ever",
    "Mortal.C38_win_no_deadlock_partial",
    "Mortal.C38_win_progress_partial",
    "Mortal.C38_win_read_event_deadlocks"
   ],
   "note": "Deadlock freedom proved for all thread counts, programs and schedules if no thread makes a call that waits for a lock it holds itself; the documented rule alone is refuted (reading through a guard while holding the write guard, C38_read_event_deadlocks). The same is proved for Windows (C38_win_no_deadlock_partial, C38_win_progress_partial, C38_win_read_event_deadlocks). Exactly which deadlocks the documented rule leaves, on both platforms: there is one if and only if some thread waits for a lock it holds itself (C38_deadlock_iff, C38_win_deadlock_iff); a deadlock is for ever (C38_for_ever, C38_win_for_ever)."
  },
  {
   "property": "C39",
   "status": "proved",
   "theorems": [
    "Mortal.C39_lock",
    "Mortal.C39_lock_write",
    "Mortal.C39_try_lock_write"
   ],
   "note": ""
  },
  {
   "property": "C40",
   "status": "partial",
   "theorems": [
    "Mortal.C40_windows_exact",
    "Mortal.C40_unix_exact_partial",
    "Mortal.C40_unix_panics_iff",
    "Mortal.C40_total_wait",
    "Mortal.C40_windows_exact_partial",
    "Mortal.C40_windows_none",
    "Mortal.C40_windows_wraps"
   ],
   "note": "Exact timeouts proved up to the stated limits; beyond them panics, wrap-around and infinite waits are proved (C40_unix_panics_iff, C40_windows_wraps). The wait on Windows for every timeout whatsoever is C40_windows_exact."
  },
  {
   "property": "C41",
   "status": "proved",
   "theorems": [
    "Mortal.C41_moves_exactly",
    "Mortal.C41_saturates"
   ],
   "note": ""
  },
  {
   "property": "C42",
   "status": "proved",
   "theorems": [
    "Mortal.C42_expands",
    "Mortal.C42_terminal_ok",
    "Mortal.C42_terminal_err",
    "Mortal.C42_screen",
    "Mortal.C42_writeln",
    "Mortal.C42_terminal_session",
    "Mortal.C42_is_guard",
    "Mortal.C42_is_guard_err",
    "Mortal.C42_win",
    "Mortal.C42_screen_guard"
   ],
   "note": ""
  },
  {
   "property": "C43",
   "status": "proved",
   "theorems": [
    "Mortal.C43_word",
    "Mortal.C43_word_unique",
    "Mortal.C43_swap",
    "Mortal.C43_swap_twice",
    "Mortal.C43_none"
   ],
   "note": ""
  },
  {
   "property": "C44",
   "status": "partial",
   "theorems": [
    "Mortal.C44_known_iff",
    "Mortal.C44_record",
    "Mortal.C44_event",
    "Mortal.C44_history_partial",
    "Mortal.C44_two_at_once",
    "Mortal.C44_horizontal_wheel"
   ],
   "note": "Each record proved, with its button; histories proved when a record changes one button at a time; two buttons at once and the horizontal wheel refuted (C44_two_at_once, C44_horizontal_wheel). After one record the buttons are known if and only if at most one changed (C44_known_iff)."
  },
  {
   "property": "C45",
   "status": "partial",
   "theorems": [
    "Mortal.C45_conversions",
    "Mortal.C45_round_trip",
    "Mortal.C45_move_forward",
    "Mortal.C45_move_backward_partial",
    "Mortal.C45_move_backward_outside",
    "Mortal.C45_line_end",
    "Mortal.C45_screen_end",
    "Mortal.C45_negative",
    "Mortal.C45_line_end_outside",
    "Mortal.C45_screen_end_outside"
   ],
   "note": "All conversions and counts proved; move_left/move_up proved within the edge, refuted beyond it (C45_move_backward_outside)."
  },
  {
   "property": "C46",
   "status": "proved",
   "theorems": [
    "Mortal.C46_prepare",
    "Mortal.C46_nested",
    "Mortal.C46_errors",
    "Mortal.C46_failed_prepare",
    "Mortal.C46_signals_not_restored",
    "Mortal.C46_motion_not_restored"
   ],
   "note": "Proved for any nesting of successful uses. Limits proved as such: failed prepare, signals to report and motion tracking are not restored."
  },
  {
   "property": "C47",
   "status": "partial",
   "theorems": [
    "Mortal.C47_repair_partial",
    "Mortal.C47_failed_reset_refuted",
    "Mortal.C47_failed_rest_refuted",
    "Mortal.C47_failed_after_clear_refuted",
    "Mortal.C47_narrow_partial",
    "Mortal.C47_wide_partial",
    "Mortal.C47_read_other",
    "Mortal.C47_read_resize",
    "Mortal.C47_opened_in_color_refuted",
    "Mortal.C47_small_window_refuted",
    "Mortal.C47_failed_call_refuted",
    "Mortal.C47_wide_exact",
    "Mortal.C47_wide_iff",
    "Mortal.C47_stale_refuted"
   ],
   "note": "Proved like C18, for sessions whose refreshes succeed, and up to one wrong cell per failed refresh since the last resize when attributes are not refused, text is not cut and no refresh fails between clearing and drawing (C47_repair_partial). With two-column characters the console is described exactly, also when it is wrong (C47_wide_exact), and shows the buffer if and only if no cell was stale (C47_wide_iff); refuted when one is (C47_stale_refuted). Refuted for the cells themselves, for the other failures with more than one wrong cell per failure, for screens opened while attributes are in effect and windows smaller than the buffer (C47_*_refuted)."
  },
  {
   "property": "C48",
   "status": "partial",
   "theorems": [
    "Mortal.C48_read_event",
    "Mortal.C48_read_raw",
    "Mortal.C48_repaint_partial",
    "Mortal.C48_win_read_event",
    "Mortal.C48_win_read_raw",
    "Mortal.C48_win_read_raw_event"
   ],
   "note": "Resize events proved on both platforms; the repaint needs buffers without torn two-column characters (C17_cut_refuted)."
  },
  {
   "property": "C49",
   "status": "partial",
   "theorems": [
    "Mortal.C49_key_exact",
    "Mortal.C49_text_exact",
    "Mortal.C49_text_iff",
    "Mortal.C49_ctrl_exact",
    "Mortal.C49_ctrl_iff",
    "Mortal.C49_alt_text",
    "Mortal.C49_named",
    "Mortal.C49_up",
    "Mortal.C49_char",
    "Mortal.C49_text_partial",
    "Mortal.C49_supplementary_lost",
    "Mortal.C49_text_refuted",
    "Mortal.C49_altgr_lost",
    "Mortal.C49_ctrl_partial",
    "Mortal.C49_ctrl_refuted",
    "Mortal.C49_ctrl_conflated",
    "Mortal.C49_record"
   ],
   "note": "Proved for text of the basic plane typed without Alt; supplementary characters and AltGr refuted (C49_supplementary_lost, C49_altgr_lost). With Ctrl proved for control codes and refuted for other characters (Ctrl and the digit 1 come as Ctrl-Q). What is told of every key record in every case is C49_key_exact; of every text with and without Ctrl C49_text_exact, C49_ctrl_exact; precisely where the two refuted claims hold C49_text_iff, C49_ctrl_iff."
  },
  {
   "property": "C50",
   "status": "proved",
   "theorems": [
    "Mortal.C50_written",
    "Mortal.C50_failed",
    "Mortal.C50_returns",
    "Mortal.C50_no_progress",
    "Mortal.C50_shown",
    "Mortal.C50_styled"
   ],
   "note": "Includes a proved limit: a console that accepts nothing without an error makes write_str loop for ever (C50_no_progress)."
  },
  {
   "property": "C52",
   "status": "proved",
   "theorems": [
    "Mortal.C52_open",
    "Mortal.C52_session",
    "Mortal.C52_failed_restore",
    "Mortal.C52_failed_open"
   ],
   "note": "Proved for sessions whose calls succeed; the failures that leave the console changed are proved as limits (C52_failed_restore, C52_failed_open)."
  },
  {
   "property": "C53",
   "status": "proved",
   "theorems": [
    "Mortal.C53_in_effect",
    "Mortal.C53_failed",
    "Mortal.C53_new",
    "Mortal.C53_not_retried"
   ],
   "note": "Includes a proved limit: a failed attribute call is not made again (C53_not_retried)."
  },
  {
   "property": "C51",
   "status": "proved",
   "theorems": [
    "Mortal.C51_call_error",
    "Mortal.C51_accounted",
    "Mortal.C51_immediate",
    "Mortal.C51_wait_immediate",
    "Mortal.C51_handled",
    "Mortal.C51_timeout",
    "Mortal.C51_read_raw_refuted"
   ],
   "note": "Includes a proved defect next to the claim: C51_read_raw_refuted."
  },
  {
   "property": "C54",
   "status": "partial",
   "theorems": [
    "Mortal.C54_clear_screen_exact",
    "Mortal.C54_move_cursor",
    "Mortal.C54_first_column",
    "Mortal.C54_move_forward",
    "Mortal.C54_move_backward",
    "Mortal.C54_move_failed",
    "Mortal.C54_cursor_mode",
    "Mortal.C54_line_end",
    "Mortal.C54_screen_end",
    "Mortal.C54_erase_failed",
    "Mortal.C54_clear_screen_full",
    "Mortal.C54_clear_screen_partial",
    "Mortal.C54_clear_screen_preserves",
    "Mortal.C54_size",
    "Mortal.C54_no_panic",
    "Mortal.C54_clear_screen_below_refuted",
    "Mortal.C54_clear_screen_scroll_refuted",
    "Mortal.C54_clear_screen_attrs_refuted"
   ],
   "note": "All calls but clear_screen proved without restriction; clear_screen proved when the window is the whole buffer, and otherwise if there is no text below the cursor and the lines can be scrolled away; refuted in the other cases (C54_clear_screen_*_refuted). What clear_screen does in every case, and exactly when the window is clear after it, is proved (C54_clear_screen_exact)."
  },
  {
   "property": "C55",
   "status": "proved",
   "theorems": [
    "Mortal.C55_exact",
    "Mortal.C55_shown",
    "Mortal.C55_at",
    "Mortal.C55_append",
    "Mortal.C55_styled"
   ],
   "note": ""
  },
  {
   "property": "C56",
   "status": "proved",
   "theorems": [
    "Mortal.C56_drop",
    "Mortal.C56_drop_after_error",
    "Mortal.C56_drop_no_error",
    "Mortal.C56_refresh_call",
    "Mortal.C56_refresh_call_error",
    "Mortal.C56_draw",
    "Mortal.C56_guard_refresh",
    "Mortal.C56_guard_cursor_mode",
    "Mortal.C56_session",
    "Mortal.C56_win_drop",
    "Mortal.C56_win_drop_after_error",
    "Mortal.C56_win_refresh_call",
    "Mortal.C56_win_refresh_call_error",
    "Mortal.C56_win_draw",
    "Mortal.C56_win_guard_refresh",
    "Mortal.C56_win_guard_cursor_mode",
    "Mortal.C56_win_session",
    "Mortal.C56_win_call_error"
   ],
   "note": ""
  },
  {
   "property": "C57",
   "status": "proved",
   "theorems": [
    "Mortal.C57_shown",
    "Mortal.C57_received",
    "Mortal.C57_calls_succeed"
   ],
   "note": ""
  },
  {
   "property": "C58",
   "status": "proved",
   "theorems": [
    "Mortal.C58_shown",
    "Mortal.C58_same",
    "Mortal.C58_call_error",
    "Mortal.C58_errors"
   ],
   "note": ""
  },
  {
   "property": "C59",
   "status": "proved",
   "theorems": [
    "Mortal.C59_live_screen",
    "Mortal.C59_live_wide"
   ],
   "note": ""
  },
  {
   "property": "C60",
   "status": "proved",
   "theorems": [
    "Mortal.C60_serial",
    "Mortal.C60_one_thread",
    "Mortal.C60_shown",
    "Mortal.C60_win_serial",
    "Mortal.C60_win_one_thread",
    "Mortal.C60_win_shown"
   ],
   "note": ""
  },
  {
   "property": "C61",
   "status": "partial",
   "theorems": [
    "Mortal.C61_size_partial",
    "Mortal.C61_size_from_partial",
    "Mortal.C61_stays_unknown",
    "Mortal.C61_next_read",
    "Mortal.C61_next_raw",
    "Mortal.C61_wait",
    "Mortal.C61_missed_while_opening",
    "Mortal.C61_superseded",
    "Mortal.C61_lost_by_failure"
   ],
   "note": "Proved when no size change is missed during Screen::new, no read fails with an OS error and no other signal follows the last SIGWINCH before it is taken; each of these is needed (C61_missed_while_opening, C61_superseded, C61_lost_by_failure). The guarantee starts afresh at any moment at which the screen has the size of the window (C61_size_from_partial), and a size that was missed stays unknown until the next SIGWINCH, whatever is called (C61_stays_unknown)."
  },
  {
   "property": "C62",
   "status": "partial",
   "theorems": [
    "Mortal.C62_methods_partial",
    "Mortal.C62_page_partial",
    "Mortal.C62_call_partial",
    "Mortal.C62_result_partial",
    "Mortal.C62_exactly_when",
    "Mortal.C62_narrow_partial",
    "Mortal.C62_seen",
    "Mortal.C62_seen_wide",
    "Mortal.C62_cut_off"
   ],
   "note": "Proved for histories without a two-column character meeting the end of a line, a combining mark after a two-column character, or a text with attributes that is cut off. The first two are shown to be exactly the characters that go wrong (C62_exactly_when), the third is refuted (C62_cut_off)."
  },
  {
   "property": "C63",
   "status": "proved",
   "theorems": [
    "Mortal.C63_shown",
    "Mortal.C63_delivered",
    "Mortal.C63_win_shown",
    "Mortal.C63_same",
    "Mortal.C63_screen",
    "Mortal.C63_error_ignored"
   ],
   "note": "Delivery is proved for an operating system that takes output; without that a method can return Ok although nothing arrived (C63_error_ignored)."
  },
  {
   "property": "C64",
   "status": "partial",
   "theorems": [
    "Mortal.C64_poisoned_iff",
    "Mortal.C64_panic_restores_partial",
    "Mortal.C64_guard_panic_aborts",
    "Mortal.C64_shared_drop",
    "Mortal.C64_shared_drop_panics",
    "Mortal.C64_win_panic_restores_partial",
    "Mortal.C64_win_guard_panic_aborts",
    "Mortal.C64_guard_panic_refuted",
    "Mortal.C64_report_aborts",
    "Mortal.C64_win_poisoned_iff"
   ],
   "note": "Proved when no guard of the terminal is held at the panic (C64_panic_restores_partial, C64_shared_drop); refuted otherwise: the drop finds a poisoned lock and panics, which aborts the process with the terminal in raw mode (C64_guard_panic_aborts, C64_guard_panic_refuted); a mouse report with coordinate 0 is enough (C64_report_aborts). Which locks are poisoned is proved for all executions (C64_poisoned_iff, C64_win_poisoned_iff)."
  },
  {
   "property": "C65",
   "status": "proved",
   "theorems": [
    "Mortal.C65_guards",
    "Mortal.C65_dead_holds_nothing",
    "Mortal.C65_win_guards",
    "Mortal.C65_win_dead_holds_nothing"
   ],
   "note": ""
  },
  {
   "property": "C66",
   "status": "partial",
   "theorems": [
    "Mortal.C66_files",
    "Mortal.C66_no_leak_partial",
    "Mortal.C66_poisoned_drop_leaks"
   ],
   "note": "Proved for all programs and all choices of the system, including what exactly is left open (C66_files); the last sentence of the property is proved if no terminal is dropped with a poisoned write lock (C66_no_leak_partial) and refuted otherwise: the drop panics before it closes (C66_poisoned_drop_leaks)."
  },
  {
   "property": "C67",
   "status": "partial",
   "theorems": [
    "Mortal.C67_unix_to_win_partial",
    "Mortal.C67_win_to_unix_partial",
    "Mortal.C67_win_tested_deadlocks"
   ],
   "note": "From Unix to Windows proved for all programs (C67_unix_to_win_partial), from Windows to Unix for those that do not read while they hold a write guard (C67_win_to_unix_partial); without that refuted (C67_win_tested_deadlocks): reading takes the write lock on Unix only, although prepare takes it on Windows for the sake of such programs."
  },
  {
   "property": "C68",
   "status": "proved",
   "theorems": [
    "Mortal.C68_shown",
    "Mortal.C68_public",
    "Mortal.C68_threads"
   ],
   "note": ""
  },
  {
   "property": "C69",
   "status": "proved",
   "theorems": [
    "Mortal.C69_live_screen",
    "Mortal.C69_live_wide"
   ],
   "note": ""
  },
  {
   "property": "C70",
   "status": "proved",
   "theorems": [
    "Mortal.C70_after",
    "Mortal.C70_modes"
   ],
   "note": ""
  },
  {
   "property": "C71",
   "status": "proved",
   "theorems": [
    "Mortal.C71_does",
    "Mortal.C71_poisoned",
    "Mortal.C71_guards_returned",
    "Mortal.C71_panic",
    "Mortal.C71_win_does",
    "Mortal.C71_win_poisoned",
    "Mortal.C71_win_guards_returned",
    "Mortal.C71_win_panic"
   ],
   "note": ""
  },
  {
   "property": "C72",
   "status": "proved",
   "theorems": [
    "Mortal.C72_modes",
    "Mortal.C72_sends",
    "Mortal.C72_events",
    "Mortal.C72_nothing_lost",
    "Mortal.C72_terminal",
    "Mortal.C72_escape_apart",
    "Mortal.C72_escape_needed",
    "Mortal.C72_keypad_needed"
   ],
   "note": ""
  },
  {
   "property": "C73",
   "status": "proved",
   "theorems": [
    "Mortal.C73_records",
    "Mortal.C73_events",
    "Mortal.C73_all",
    "Mortal.C73_screen",
    "Mortal.C73_nothing_missed",
    "Mortal.C73_stale_button"
   ],
   "note": ""
  },
  {
   "property": "C74",
   "status": "partial",
   "theorems": [
    "Mortal.C74_search_contract",
    "Mortal.C74_rewritten_map_partial",
    "Mortal.C74_get_any",
    "Mortal.C74_insert_any",
    "Mortal.C74_remove_any",
    "Mortal.C74_removed_key_stays",
    "Mortal.C74_find_any",
    "Mortal.C74_undecided_wrong"
   ],
   "note": "The full statement is false: the documentation asks only for sorted keys, and with two equal keys a removed key is still there (C74_removed_key_stays, for every search the standard library allows) and find can answer Undecided with no longer key (C74_undecided_wrong). Strictly sorted slices: C74_rewritten_map_partial, everything. Sorted slices with equal keys: exactly what get, find, insert and remove do is C74_get_any, C74_find_any, C74_insert_any, C74_remove_any."
  },
  {
   "property": "C75",
   "status": "proved",
   "theorems": [
    "Mortal.C75_told",
    "Mortal.C75_terminal",
    "Mortal.C75_nothing_lost",
    "Mortal.C75_told_apart"
   ],
   "note": ""
  },
  {
   "property": "C76",
   "status": "partial",
   "theorems": [
    "Mortal.C76_drop_calls",
    "Mortal.C76_drop_closes",
    "Mortal.C76_handles_partial",
    "Mortal.C76_left_open",
    "Mortal.C76_all_closed",
    "Mortal.C76_leaked",
    "Mortal.C76_invalid_used",
    "Mortal.C76_open_calls",
    "Mortal.C76_unopened_calls",
    "Mortal.C76_unopened_closed"
   ],
   "note": "Proved for histories in which the system never answers with the invalid handle; C76_invalid_used shows the use of the invalid handle, C76_leaked a buffer left open, C76_left_open which calls must have failed for that, C76_all_closed that without failures everything is closed. C76_open_calls and C76_unopened_calls give what Screen::new does to buffers, C76_unopened_closed exactly when a screen that could not be opened leaves its buffer open, C76_drop_calls gives the calls of Drop for Screen exactly, and C76_drop_closes exactly when the buffer of a screen is closed."
  },
  {
   "property": "C77",
   "status": "proved",
   "theorems": [
    "Mortal.C77_live",
    "Mortal.C77_live_wide",
    "Mortal.C77_buffer",
    "Mortal.C77_returns",
    "Mortal.C77_read_other",
    "Mortal.C77_read_resize",
    "Mortal.C77_read_raw_event",
    "Mortal.C77_report_needed"
   ],
   "note": "Narrow characters without further conditions; two-column characters under the conditions of C47_wide_partial. C77_report_needed shows that the report of the size is needed. Windows smaller than the buffer are outside (see C47_small_window_refuted)."
  },
  {
   "property": "C78",
   "status": "proved",
   "theorems": [
    "Mortal.C78_started",
    "Mortal.C78_built",
    "Mortal.C78_new",
    "Mortal.C78_unique",
    "Mortal.C78_on_screen",
    "Mortal.C78_cells",
    "Mortal.C78_on_unix",
    "Mortal.C78_on_windows"
   ],
   "note": ""
  },
  {
   "property": "C79",
   "status": "partial",
   "theorems": [
    "Mortal.C79_one_place",
    "Mortal.C79_told_once",
    "Mortal.C79_no_other_told",
    "Mortal.C79_each_byte_once",
    "Mortal.C79_own",
    "Mortal.C79_nested_partial",
    "Mortal.C79_history_partial",
    "Mortal.C79_crossed",
    "Mortal.C79_other_not_told"
   ],
   "note": "Signals (C79_one_place, C79_told_once, C79_no_other_told) and bytes (C79_each_byte_once) proved without restriction. Modes and handlers proved when the terminals together are restored in the reverse order of their preparation (C79_nested_partial, C79_history_partial); in the order of preparation refuted, and exactly what is left proved (C79_crossed). That every prepared terminal is told of a change of size is refuted (C79_other_not_told): the first to read takes the signal. Beyond what is shared, terminals do not interfere (C79_own)."
  },
  {
   "property": "C80",
   "status": "partial",
   "theorems": [
    "Mortal.C80_accounted",
    "Mortal.C80_told_once",
    "Mortal.C80_immediate",
    "Mortal.C80_handled",
    "Mortal.C80_own",
    "Mortal.C80_nested_partial",
    "Mortal.C80_handlers",
    "Mortal.C80_crossed",
    "Mortal.C80_other_told",
    "Mortal.C80_taken_away_refuted",
    "Mortal.C80_release_lost"
   ],
   "note": "Signals (C80_accounted, C80_told_once, C80_immediate) and registrations of the handler, in any order of restoring (C80_handlers), proved without restriction. Input mode proved when the terminals together are restored in the reverse order of their preparation (C80_nested_partial); in the order of preparation refuted, and exactly what is left proved (C80_crossed). That a signal goes to a terminal that has asked for it is refuted (C80_other_told): the first to read takes it. Which signals are handled is exactly characterised (C80_handled: those of the latest prepare, also once it is restored), so that a signal somebody has asked for may not be handled (C80_taken_away_refuted). Beyond what is shared, terminals do not interfere (C80_own); each remembers the buttons for itself, so that a release read on another terminal than the press is not told (C80_release_lost)."
  },
  {
   "property": "C81",
   "status": "proved",
   "theorems": [
    "Mortal.C81_live",
    "Mortal.C81_live_wide",
    "Mortal.C81_exact"
   ],
   "note": "C81_live for one-column characters, C81_live_wide for two-column characters under the conditions of C59 and C77, C81_exact also where cells are torn (all calls succeeding, refreshes at the same times). Italic and underline do not exist on the console and are not compared."
  },
  {
   "property": "C82",
   "status": "proved",
   "theorems": [
    "Mortal.C82_events",
    "Mortal.C82_terminal",
    "Mortal.C82_held_refuted"
   ],
   "note": "C82_events for screens, C82_terminal for terminals, C82_held_refuted for keys with modifiers. Changes of size and signals are not compared: a console tells every size, on Unix several changes may be told as one (C61)."
  },
  {
   "property": "C83",
   "status": "proved",
   "theorems": [
    "Mortal.C83_xterm",
    "Mortal.C83_console",
    "Mortal.C83_same",
    "Mortal.C83_xterm_wide",
    "Mortal.C83_console_wide"
   ],
   "note": "C83_xterm, C83_xterm_wide (two-column characters, under the conditions of C59), C83_console, C83_console_wide (two-column characters, under the conditions of C77) and C83_same. On the console calls return Ok (C77 is about refreshes that fail). The visibility of the cursor is C69/C80."
  }
 ]
}