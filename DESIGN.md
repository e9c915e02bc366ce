# Formal model of murarth/mortal in Lean 4 — design

## 1. Layout

* `lean/Verif/Model/*.lean` — the model: total computable functions, each with a comment citing the
  file and lines of `/repo` it models, and saying where it simplifies.
* `lean/Verif/Spec/*.lean` — the specifications: what the properties say, in terms of the API and
  of what can be observed (finite maps, sets, UTF-8, a terminal emulator, the attributes in effect
  on a device, a Windows console, the timeline of signals, ...). They do not use the helpers of the
  model; they mention types of the model where a statement has to (calls, events, sizes).
* `lean/Verif/Lemmas/*.lean` — helper lemmas: invariants, simulation relations, small program logics.
* `lean/Verif/Props/*.lean` — the property theorems, `C01_...` and so on, each followed by
  `example`s that meet its hypotheses with a concrete, non-trivial case.
* `properties.jsonl` — the properties; `MANIFEST.json` — for each the theorems and the status;
  `seeded/LOG.jsonl` — wrong programs (edits of the model) the theorems were tested against.

A theorem whose name contains `_partial` proves a part of its property and says what is missing.
When a property is false of the code, its negation (or the negation of a consequence) is proved from
a concrete witness, under a name such as `..._refuted`, `..._panics`, `..._lost`; the partial theorem
then states exactly the cases it leaves out.

## 2. Trusted base

### 2.1 Logic

Lean 4.33.0's kernel. Mathlib is used for one tactic (`Mathlib.Tactic.IntervalCases`); what it
produces is checked by the kernel. No axioms are added. No theorem depends on any axiom other than
Lean's three standard ones, `propext`, `Classical.choice` and `Quot.sound`; section 5 lists the
axioms of each theorem. `decide +kernel` is used to evaluate concrete
witnesses and finite tables; it is checked by the kernel's evaluation and adds no axiom.

### 2.2 That the model is the code

The model was written by hand from the source; nothing extracts it. This is the main assumption. The
citations allow checking it function by function. Conventions used:

* A panic is an explicit result: `none` in `Panics α = Option α`, `.stop` in the results of the
  effectful parts. `Result` stays data. A `&mut self` method returns the new state and its result.
  Where a call does not return (a wait that never ends), the result is `.stop` too, or the schedule
  of the system runs out; theorems say which they mean.
* `usize` is `Nat`. Subtraction that can underflow and indexing that can be out of range are explicit
  panics; addition is checked against `usize` limits where a value chosen by the user can get there
  (line numbers at newline, timeouts). Sizes of memory are not limited. Overflow panics are those of
  a build with overflow checks; where it matters the theorem says so (C28, C40).
* `u8`, `u16`, `i16`, `u32` arithmetic is exact where the property is about it (mouse reports,
  timeouts, Windows coordinates and attribute words, relative movement).
* `char` is Lean's `Char` (both are the Unicode scalar values). Text on a screen is a list of `Char`,
  text on a device is bytes.
* Ownership, lifetimes, `unsafe` blocks and the layout of C structures are not modelled.
* Unwinding: a panic ends the history; only the model of locks (C38, C39, C24) goes on after one, to
  account for poisoning, and `Model/Unwind.lean` (C64), which follows the drops of guards, of the
  screen and of the terminal. There a second panic in a thread that unwinds aborts the process.
* Locks: outside `Model/Locks.lean` and `Model/WinLocks.lean` everything runs in one thread that has the locks it needs.
  Locking a mutex the thread already has counts as blocking for ever (`std` leaves open whether it
  panics instead).

### 2.3 What surrounds the code

These are parameters of the model that theorems quantify over, or specifications that are believed
to describe the real thing:

* `unicode-width`, `unicode-normalization`: arbitrary functions (`UEnv`). Nothing is assumed of them
  except where a theorem has a hypothesis.
* `terminfo`: for each capability an arbitrary table says whether it is absent, expands to given
  bytes for given parameters, or fails to expand (`WEnv.db`). The variables that
  terminfo strings can set in the writer's `Context` are not modelled: an expansion depends on its
  parameters only.
* `smallstr`: a cell's text is a list of characters.
* Unix system calls: arbitrary answers from a schedule (`write`, `read`, `select`, `ioctl`,
  `tcgetattr`, `tcsetattr`, `sigaction`), signals arriving between any two of them. `tcsetattr` and
  `sigaction` do what they say when they succeed. The window's size can change at any of them. Signal numbers are those of Linux.
  `nix::sys::time::TimeVal` has the range checks of the `nix` version the crate uses.
* The terminal (`Spec/Screen.lean`, `Spec/Writer.lean`): an emulator that understands terminfo
  commands and text as separate items (that the bytes of a command cannot be confused with text is
  assumed there; for xterm it is proved, C68 to C70, with the terminal of `Spec/Vt.lean`, which reads bytes, and
  the strings of ncurses' entry `xterm-256color`). After a character in the last column the position of the cursor is unknown until it is
  moved (so that nothing depends on how a terminal wraps). Clearing may or may not fill with the
  background colour (`bce`).
* The Windows console (`Spec/Console.lean`): a state with an input mode, registered handlers, an
  input queue and screen buffers; each API call has specified effects when it succeeds, may fail at any
  time unless a theorem says otherwise, and other things may happen between calls. The answers to
  `GetConsoleScreenBufferInfo` tell the truth.
* `eprintln!` in destructors succeeds and has no effect; closing file descriptors is not
  modelled.
* `std::fmt`, `concat!` and the evaluation of arguments in the macros are represented by their
  results; the recursion limit of the compiler is ignored.

### 2.4 What is modelled

| source | model | remarks |
|--------|-------|---------|
| `src/sequence.rs` | `Model/SequenceMap.lean` | the whole map: construction, entries, lookup, removal, `find`; the sorting of `From<Vec>` is a stable insertion sort |
| `src/signal.rs` | `Model/SignalSet.lean` | all operators, `Debug` |
| `src/util.rs` | `Model/Util.lean`, `Model/Buffer.lean` | control characters and prefixes; width and combining marks are parameters |
| `src/terminal.rs` | `Model/Types.lean`, `Model/Writer.lean`, `Model/Unix.lean` | `Size`, `Cursor`, `Key`, `Theme`, `Style`, `Event`, `PrepareConfig`; `WOp` is the list of methods of `TerminalWriteGuard` |
| `src/buffer.rs` | `Model/Buffer.lean` | the whole `ScreenBuffer`: cells, `write_str`, `write_char`, `write_styled`, `write_at`, resize, `next_cell` |
| `src/unix/terminal.rs` | `Model/Writer.lean`, `Model/Input.lean`, `Model/Utf8.lean`, `Model/Unix.lean`, `Model/Timeout.lean` | writer and write guard (output buffer, attributes, movement, erasing, modes), decoding of input, reader (`wait_event`, `read_event`, `read_raw`), signals and their handler, `prepare`/`restore`, resume after SIGCONT, `Terminal::new`'s table of sequences |
| `src/unix/screen.rs` | `Model/Screen.lean`, `Model/ScreenUnix.lean` | refresh, opening, dropping, reading, the write guard and its drop |
| `src/priv_util.rs` and the `lock_*` methods | `Model/Locks.lean` | lock results; a transition system of threads, with the code of the Unix implementation |
| the locks in `src/windows/` | `Model/WinLocks.lean` | the same system with the code of the Windows implementation |
| `src/macros.rs` | `Model/Macros.lean` | both macros as functions on token trees, and the `Chain` they expand to |
| `src/windows/terminal.rs` | `Model/WinPure.lean`, `Model/Win.lean` | attribute words, mouse and key records, coordinates; all calls of reader and write guard as programs over console calls, the control handler, `prepare`/`restore`, opening and dropping |
| `src/terminal.rs`, `src/screen.rs`: public methods that write | `Model/Api.lean` | all of them, of `Terminal`, `Screen` and their write guards, on both platforms |
| `src/unix/terminal.rs`: several `Terminal`s, `LAST_SIGNAL` | `Model/Several.lean` | the process: devices, terminals, handlers; calls one after another |
| `src/windows/terminal.rs`: several `Terminal`s, `CATCH_SIGNALS`, `LAST_SIGNAL` | `Model/WinSeveral.lean` | the process: terminals and statics; calls one after another |
| `src/terminal.rs`: `Theme` | `Model/Theme.lean` | `default`, `new` and the builder methods |
| `src/windows/screen.rs` | `Model/WinScreen.lean` | opening, refresh, reading, write guard, dropping |

### 2.5 What is not modelled

* Methods that only pass their arguments on and do not write: the public wrappers of reading, locking and
  preparing in `src/terminal.rs` and `src/screen.rs`, the extension traits.
  (The public methods that write are in `Model/Api.lean`.) Formatting of `write_fmt`'s arguments.
* `Terminal::name`, `isatty`; what paths name. (Descriptors are in `Model/Fds.lean`, apart from the rest.)
* `Debug`/`Display` other than that of `SignalSet`.
* `GetLastError` codes (an error is just an error). A failed `CloseHandle` leaves its handle open; Rust's ownership of handles is not modelled beyond the places where the code closes them (C76).
* Documentation, tests and examples.

## 3. Properties: what is modelled and how it is proved

The full statements are in `properties.jsonl`, the exact theorem statements in `Props/`.

### C01. SequenceMap is a finite map (proved)

The map is a sorted list with the binary search loop of the code. Refinement to `Key → Option V`, by induction over histories of calls, with the sortedness of the list as invariant.

Theorems (`Props/SequenceMap.lean`): `C01_finite_map`.

### C02. SequenceMap::sequences is always sorted and duplicate free (proved)

Invariant over constructions and histories: keys strictly increase in byte order; the pairs are those of the mathematical map.

Theorems (`Props/SequenceMap.lean`): `C02_sequences_sorted`.

### C03. SequenceMap::find classifies a query exactly (proved)

`find` looks at the neighbour of the insertion point. Proved with the fact that the extensions of a key are contiguous in a sorted list; a separate theorem says the classification has only one answer.

Theorems (`Props/SequenceMap.lean`): `C03_find_classifies`, `C03_classification_unique`, `C03_cloned_same`.

### C04. Bulk construction resolves duplicate keys as documented (proved)

Stable sort and deduplication for `From<Vec>`, a fold of insertions for `FromIterator`; induction over the list.

Theorems (`Props/SequenceMap.lean`): `C04_from_vec_first`, `C04_collect_last`.

### C05. SignalSet is the Boolean algebra of sets of signals (proved)

Sets as `BitVec 8`. Refinement to `Signal → Prop` for every program over the public API, with the invariant that unused bits are zero.

Theorems (`Props/SignalSet.lean`): `C05_contains_iff_mem`, `C05_eq_iff_same_members`, `C05_containsAll_iff`, `C05_isEmpty_iff`, `C05_intersects_iff`.

### C06. SignalSet Debug output identifies the set (proved)

The formatter as a list of strings; injectivity through the list of names.

Theorems (`Props/SignalSet.lean`): `C06_debug_text`, `C06_names_are_members`, `C06_debug_injective`.

### C07. Control-character helpers and Key::from(char) (proved)

Arithmetic on code points, for all scalar values (`Key::from` against the table of the documentation).

Theorems (`Props/Util.lean`): `C07_isCtrl_iff`, `C07_ctrl_unctrl`, `C07_ctrl_letter`, `C07_ctrl_any`, `C07_unctrl_any`, `C07_key_of_char`, `C07_keyOf_unique`, `C07_key_injective`, `C07_no_upper_ctrl`.

### C08. prefixes enumerates all non-empty prefixes (proved)

The two iterators as state machines on the UTF-8 length of the text; induction over the text.

Theorems (`Props/Util.lean`): `C08_prefixes`, `C08_prefixes_exact`.

### C09. Cursor::next/previous walk the screen (proved)

Arithmetic; the walk by induction over the number of cells left.

Theorems (`Props/Cursor.lean`): `C09_next_walks_all`, `C09_rowMajor_exact`, `C09_next_previous`, `C09_outOfBounds_iff`, `C09_area`.

### C10. Screen drawing never panics (partial)

The whole screen buffer with explicit panics. Invariant over histories: the grid has `lines * columns` non-empty cells and the attributes are sane. `C10_panics_iff` gives the exact condition for a panic of any history, by a case analysis of every call on a sound grid.

*Limits.* The exact condition for a panic is proved for every history (C10_panics_iff): a line number beyond the usize range, or a two-column character on the last but one line of a one-column screen; both occur (C10_wide_on_one_column_panics, C10_newline_at_limit_panics).

Theorems (`Props/BufferGrid.lean`, `Props/DrawPanic.lean`): `C10_draw_total_partial`, `C10_wide_on_one_column_panics`, `C10_newline_at_limit_panics`, `C10_panics_iff`, `C10_sound`.

### C11. Plain text lands in consecutive cells (proved)

Functional specification of a plain write (position `k` cells on in reading order holds character `k`), induction over the text.

Theorems (`Props/BufferGrid.lean`, `Props/BufferOps.lean`): `C11_plain_text`, `C11_others_untouched`, `C11_styled_text`.

### C12. Out-of-bounds writes are dropped, not misplaced (partial)

As C11, with the text cut at the last cell. Any text: induction over the characters, the step from what one character does when it reports out of bounds.

*Limits.* Proved for single-width text, to the last field (C12_cut_exactly). For any text (C12_any_text_partial): what precedes the first character without a place is written, what follows has no effect; the one way it goes wrong is a two-column character with only the last cell left, which is written into that cell all the same (C12_wide_excess_overwrites), and exactly what changes then is proved.

Theorems (`Props/BufferCut.lean`, `Props/BufferGrid.lean`): `C12_any_text_partial`, `C12_cut_exactly`, `C12_write_at_outside`, `C12_text_cut_off_partial`, `C12_below_last_line`, `C12_wide_excess_overwrites`.

### C13. Control characters in screen text (proved)

One theorem per control character, with the state before and after.

Theorems (`Props/BufferGrid.lean`): `C13_carriage_return`, `C13_newline`, `C13_invisible`, `C13_tab`, `C13_tab_outside`.

### C14. Wide characters occupy two cells of one line and are never torn (partial)

The two-column branch: what one call does, and an invariant (the halves stay together) over histories.

*Limits.* Proved for histories in which no two-column character is written with a single column left and no resize cuts one; both excluded cases tear characters (C14_wrap_duplicates, C14_resize_tears). Exactly which cells change in the first of them is proved (C14_wrap_exact).

Theorems (`Props/BufferWide.lean`, `Props/WideExact.lean`): `C14_wide_fits`, `C14_never_torn_partial`, `C14_wrap_duplicates`, `C14_resize_tears`, `C14_wrap_exact`.

### C15. Combining marks attach to the preceding character (partial)

The combining branch, induction over the marks.

*Limits.* Proved for one-column base characters; refuted after two-column ones (C15_wide_base_misses). There the marks go to the blank right half, and nothing else changes (C15_wide_base_exact).

Theorems (`Props/BufferWide.lean`, `Props/WideExact.lean`): `C15_marks_attach_partial`, `C15_ignored_at_origin`, `C15_wide_base_misses`, `C15_wide_base_exact`.

### C16. Drawn cells carry the attributes in force (partial)

Relation between cells before and after any write; the attributes in force by refinement to an attribute fold.

*Limits.* Attributes of every cell written proved without restriction (C16_cells, C16_styled_cells); attributes in force proved for histories without a styled write running past the end of the screen, refuted otherwise (C16_overflow_leaks). With such writes included, the attributes after any history are proved too (C16_attributes_exact).

Theorems (`Props/BufferAttrs.lean`, `Props/Exact.lean`): `C16_attributes_follow_partial`, `C16_cells`, `C16_styled_cells`, `C16_at_cells`, `C16_overflow_leaks`, `C16_attributes_exact`, `C16_from_new`.

### C17. Resize keeps the common region (partial)

Functional specification of resize; the repaint through the sequence of cells `refresh` visits, on Unix and on Windows.

*Limits.* The resize itself is proved without restriction; the repaint after it for buffers without torn two-column characters, refuted otherwise (C17_cut_refuted).

Theorems (`Props/BufferWide.lean`, `Props/Screen.lean`, `Props/WinOnly.lean`): `C17_resize`, `C17_repaints_partial`, `C17_cut_refuted`, `C17_win_repaints_partial`.

### C18. After refresh the terminal shows the buffer (partial)

Simulation: screen buffer, writer and output device against the terminal emulator of `Spec/Screen.lean`. The invariant says that what is recorded as shown is shown. Induction over sessions of drawing calls, refreshes and resizes. For the exact description (`Spec/Stale.lean`, no screen in it) the stale cells of a refresh are the exceptions of the invariant; they stay undrawn and torn.

*Limits.* Proved for all sessions drawing one-column characters. With two-column characters the screen is described exactly, also when it is wrong: C18_wide_exact gives the picture of every cell, and C18_wide_iff says the terminal shows the buffer if and only if no cell was stale (uncovered with the content it was last drawn with). Refuted in general (C18_stale_refuted, C18_cursor_refuted, C18_line_end_refuted). Left out: two-column characters cut by the line end, and stale cells that are to hold a two-column character.

Theorems (`Props/Screen.lean`, `Props/Stale.lean`): `C18_narrow_partial`, `C18_wide_partial`, `C18_refresh_returns`, `C18_stale_refuted`, `C18_cursor_refuted`, `C18_line_end_refuted`, `C18_wide_exact`, `C18_wide_iff`.

### C19. Refresh without changes sends nothing (proved)

The back buffer equals the front buffer after a refresh, so `next_cell` finds nothing; the cells sent are characterised by a fold over the grid. For Windows the same with the texts written to the console buffer (`Lemmas/WinOnly.lean`).

Theorems (`Props/Screen.lean`, `Props/ScreenGuard.lean`, `Props/WinOnly.lean`): `C19_second_refresh_silent`, `C19_only_changed`, `C19_win_second_refresh_silent`, `C19_win_only_changed`.

### C20. A failed refresh is repaired by the next one (partial)

As C18, with a count of the cells that are wrong because of failures. Exactly: refinement to a bookkeeping of what is shown and what is noted as shown (`Spec/Ledger.lean`), by induction over the session; then every wrong cell is traced back to the refresh that failed at it.

*Limits.* The claim is refuted (C20_lost_cell_refuted). What remains true is proved: at most one wrong cell per failed refresh since the last resize (C20_repair_partial). What the terminal shows after any session with failed refreshes is described exactly (C20_exact), every wrong cell is one a failed refresh ended at (C20_wrong_only_if_lost), and such a cell stays as it is (C20_lost_stays). All for sessions without two-column characters.

Theorems (`Props/Ledger.lean`, `Props/Screen.lean`): `C20_exact`, `C20_each_refresh`, `C20_wrong_only_if_lost`, `C20_lost_stays`, `C20_repair_partial`, `C20_lost_cell_refuted`.

### C21. Terminal attributes follow the calls (proved)

The attribute routines (mutually recursive in the code, with fuel in the model) against a device that keeps the attributes in effect; refinement to a fold over the calls.

Theorems (`Props/Writer.lean`): `C21_call`, `C21_attributes_follow`, `C21_calls_succeed`.

### C22. Redundant attribute calls send nothing and attribute calls terminate (proved)

Fuel bound for the recursion; silence from the comparison with the attributes believed in effect.

Theorems (`Props/Writer.lean`): `C22_calls_return`, `C22_redundant_silent`, `C22_repeat_silent`.

### C23. Output bytes reach the device once and in order (partial)

Output buffer and write loop over arbitrary answers of `write(2)`; invariant: device ++ pending = everything handed over. For any answers: the calls made are a prefix of the answers, described by `Spec/Sending.lean` without the loop.

*Limits.* Proved when the OS never accepts only part of a write; refuted for short writes (the code resends the buffer from its start), see C23_short_write_\*. For all answers of write(2) exactly when a flush succeeds, fails, panics or does not return, and what was sent and kept, is proved (C23_flush_\*_iff, C23_kept_iff_partial, C23_large_text).

Theorems (`Props/Sending.lean`, `Props/Writer.lean`): `C23_flush_ok_iff`, `C23_flush_err_iff`, `C23_flush_panics_iff`, `C23_flush_waits_iff`, `C23_kept_iff_partial`, `C23_large_text`, `C23_in_order_partial`, `C23_text_partial`, `C23_short_write_repeats`, `C23_short_write_never_succeeds`.

### C24. Flush empties the buffer; dropping a write guard flushes (partial)

A transition system of threads and locks (`Model/Locks.lean`): between taking and releasing the lock only that thread uses the writer. Flushing from the loop of C23; a relation kept by every call for the calls that take the lock themselves.

*Limits.* Flush and drop proved for all states; exclusivity of a guard session proved for all interleavings; contiguity of bytes on the device needs the absence of short writes (see C23). Every call that takes the lock for itself, on a terminal or a screen, passes on all it wrote whether it succeeds or fails.

Theorems (`Props/Flushed.lean`, `Props/Locks.lean`, `Props/WinLocks.lean`, `Props/Writer.lean`): `C24_calls_flush`, `C24_screen_flush`, `C24_exclusive`, `C24_contiguous_partial`, `C24_win_exclusive`, `C24_flush_empties`, `C24_drop_flushes`.

### C25. Input bytes are consumed exactly once and in order (proved)

The reader with its buffer over schedules; invariant: used ++ buffered = received, by induction over histories of calls.

Theorems (`Props/Input.lean`): `C25_bytes_once`.

### C26. Key sequences: longest match wins (proved)

The search for the longest sequence (`find` on growing prefixes), using C03; the table of `Terminal::new` from any terminfo entry, capability by capability.

Theorems (`Props/Input.lean`): `C26_terminal_table`, `C26_longest_key`, `C26_first_char`.

### C27. Typed text is decoded character by character (proved)

Induction over the text with the specification of UTF-8.

Theorems (`Props/Input.lean`): `C27_text`.

### C28. Xterm mouse reports decode to the reported event (partial)

The report parser; round trip with the printing of decimal numbers, for all 32-bit numbers.

*Limits.* Decoding proved for every report; freedom from panics characterised exactly: only a coordinate 0 panics (C28_zero_coordinate_panics).

Theorems (`Props/Input.lean`): `C28_report`, `C28_no_panic_partial`, `C28_zero_coordinate_panics`.

### C29. Decoded events do not depend on how input is chunked (partial)

The reader of C25 on a stream of pieces (`Spec/Pieces.lean`: characters, key sequences, mouse reports) that is split into reads; a piece that has arrived is what is decoded, whatever follows it later; induction over histories.

*Limits.* Proved for every stream of characters, key sequences and mouse reports, and any chunking that does not end a read inside a sequence or report (C29_pieces_partial); for text any chunking at all (C29_text_chunks_partial). Refuted for a key sequence split between reads (C29_split_sequence). For every chunking, exactly what each read makes of what has arrived is proved (C29_turns, C29_chunks_decide): a sequence or report that is cut is reported character by character (C29_cut_exact).

Theorems (`Props/Input.lean`, `Props/Pieces.lean`, `Props/Turns.lean`): `C29_text_chunks_partial`, `C29_text_completes_partial`, `C29_split_sequence`, `C29_pieces_partial`, `C29_pieces_complete_partial`, `C29_same_events_partial`, `C29_turns`, `C29_chunks_decide`, `C29_cut_exact`.

### C30. UTF-8 handling of input (partial)

UTF-8 well-formedness specified after the Unicode standard; the decoder classifies every byte string.

*Limits.* Classification proved for every byte string; recovery proved through read_raw, refuted through read_event alone (C30_read_event_stuck).

Theorems (`Props/Input.lean`): `C30_unfinished_waits`, `C30_completed`, `C30_ill_formed_error`, `C30_cases`, `C30_raw_recovers_partial`, `C30_read_event_stuck`.

### C31. Signals are reported at most once and never invented (partial)

`LAST_SIGNAL` as a slot; signals arrive at any step of the schedule; invariant over histories (subsequence).

*Limits.* Order, no invention and no repetition proved for every history; delivery proved unless another signal arrives first, refuted in that case (C31_signal_lost). Exactly what becomes of each signal is proved: the terminal is one place for a signal (C31_one_place, C31_fate_partial).

Theorems (`Props/SignalFate.lean`, `Props/Signals.lean`): `C31_one_place`, `C31_fate_partial`, `C31_at_most_once`, `C31_latest_first`, `C31_latest_first_raw`, `C31_not_lost_partial`, `C31_signal_lost`.

### C32. A pending signal wakes a waiting reader (partial)

The wait loop over schedules; induction over the interruptions.

*Limits.* Wake-up proved for signals before the first check and during select; refuted for the window between check and select (C32_missed_wakeup). Every signal in that window is missed (C32_window).

Theorems (`Props/SignalFate.lean`, `Props/Signals.lean`): `C32_window`, `C32_already_pending`, `C32_interrupted`, `C32_false_partial`, `C32_missed_wakeup`.

### C33. Signal events respect the configuration (proved)

`handle_signal` after `prepare` and anything well nested, with C34's induction.

Theorems (`Props/Signals.lean`): `C33_resize`, `C33_reported_iff`, `C33_continue`, `C33_continue_idle`, `C33_read_resize`.

### C34. restore undoes prepare, nested in LIFO order (partial)

Well-nested programs as an inductive type; induction over them, over all schedules.

*Limits.* Modes, handlers and the remembered configuration proved restored for any nesting; the set of signals to report and inner mouse/keypad modes refuted (C34_report_not_restored, C34_inner_disables_mouse). What these are instead is proved exactly (C34_not_put_back, C34_modes_after).

Theorems (`Props/Exact.lean`, `Props/Prepare.lean`): `C34_not_put_back`, `C34_modes_after`, `C34_nested_partial`, `C34_history`, `C34_device_modes_partial`, `C34_report_not_restored`, `C34_inner_disables_mouse`.

### C35. prepare establishes the requested mode (proved)

Symbolic execution of `prepare`; the modes bit by bit.

Theorems (`Props/Prepare.lean`): `C35_prepare_establishes`, `C35_default`.

### C36. A failed prepare leaves the terminal as it was (partial)

Every failing path of `prepare`; the handlers installed by then are a prefix of the order of installation (`Spec/HowFar.lean`).

*Limits.* That a failed prepare changes nothing is refuted (C36_failed_prepare_changes). Exactly how far it gets is proved (C36_how_far): nothing, or the modes and the first few handlers.

Theorems (`Props/HowFar.lean`, `Props/Prepare.lean`): `C36_how_far`, `C36_failed_prepare_partial`, `C36_first_steps_partial`, `C36_failed_prepare_changes`.

### C37. A Screen session restores the terminal (partial)

The life of a screen as a program over schedules: opening, any use, drop; invariants from C34 and C24. With failures in the drop: the handlers put back are a prefix of the order of restoring (`Spec/HowFar.lean`).

*Limits.* Proved when no system call fails during the drop; refuted otherwise: exit_screen is skipped when restore fails, a failed write keeps raw mode, a failed prepare in Screen::new leaves raw mode, zero lines panic. With failures of any kind, exactly what is put back is proved (C37_how_far, C37_failed_new_how_far).

Theorems (`Props/HowFar.lean`, `Props/ScreenSession.lean`): `C37_how_far`, `C37_failed_new_how_far`, `C37_session_partial`, `C37_open`, `C37_failed_new_partial`, `C37_exit_skipped`, `C37_modes_kept`, `C37_failed_new_raw`, `C37_zero_lines_panics`.

### C38. No deadlock if the read lock is taken first (partial)

The transition system of threads and locks; a rank on locks excludes cycles of waiting. Exactness (`Lemmas/SelfWait.lean`): under the documented rule every thread takes locks by rank up to the point at which it waits for its own lock, so a deadlock contains such a thread.

*Limits.* Deadlock freedom proved for all thread counts, programs and schedules if no thread makes a call that waits for a lock it holds itself; the documented rule alone is refuted (reading through a guard while holding the write guard, C38_read_event_deadlocks). The same is proved for Windows (C38_win_no_deadlock_partial, C38_win_progress_partial, C38_win_read_event_deadlocks). Exactly which deadlocks the documented rule leaves, on both platforms: there is one if and only if some thread waits for a lock it holds itself (C38_deadlock_iff, C38_win_deadlock_iff); a deadlock is for ever (C38_for_ever, C38_win_for_ever).

Theorems (`Props/Locks.lean`, `Props/SelfWait.lean`, `Props/WinLocks.lean`): `C38_no_deadlock_partial`, `C38_progress_partial`, `C38_read_event_deadlocks`, `C38_wrong_order_deadlocks`, `C38_deadlock_iff`, `C38_win_deadlock_iff`, `C38_for_ever`, `C38_win_for_ever`, `C38_win_no_deadlock_partial`, `C38_win_progress_partial`, `C38_win_read_event_deadlocks`.

### C39. Lock results compose correctly (proved)

Case analysis of the combinators, for all lock states.

Theorems (`Props/Locks.lean`): `C39_lock`, `C39_lock_write`, `C39_try_lock_write`.

### C40. Timeouts are honoured (partial)

Arithmetic of `to_timeval`, `as_millis` and `nix`'s conversions; the total wait by induction over interruptions.

*Limits.* Exact timeouts proved up to the stated limits; beyond them panics, wrap-around and infinite waits are proved (C40_unix_panics_iff, C40_windows_wraps). The wait on Windows for every timeout whatsoever is C40_windows_exact.

Theorems (`Props/Exact.lean`, `Props/Timeout.lean`): `C40_windows_exact`, `C40_unix_exact_partial`, `C40_unix_panics_iff`, `C40_total_wait`, `C40_windows_exact_partial`, `C40_windows_none`, `C40_windows_wraps`.

### C41. Relative cursor movement (proved)

The command sent, and its meaning as a movement.

Theorems (`Props/Writer.lean`): `C41_moves_exactly`, `C41_saturates`.

### C42. term_write! runs its elements in order (proved)

The macros as rewriting of token trees, proved equal to the documented grammar by induction over the tokens; chains by induction over the calls; refinement to write guards with the public methods of C63, on both platforms and on screens.

Theorems (`Props/Macros.lean`): `C42_expands`, `C42_terminal_ok`, `C42_terminal_err`, `C42_screen`, `C42_writeln`, `C42_terminal_session`, `C42_is_guard`, `C42_is_guard_err`, `C42_win`, `C42_screen_guard`.

### C43. Windows text attribute word (proved)

Attribute words as `BitVec 16`; for every default word, colours and style.

Theorems (`Props/WinPure.lean`): `C43_word`, `C43_word_unique`, `C43_swap`, `C43_swap_twice`, `C43_none`.

### C44. Windows mouse records decode correctly (partial)

Mouse records as data; case analysis for one record, induction for histories.

*Limits.* Each record proved, with its button; histories proved when a record changes one button at a time; two buttons at once and the horizontal wheel refuted (C44_two_at_once, C44_horizontal_wheel). After one record the buttons are known if and only if at most one changed (C44_known_iff).

Theorems (`Props/Exact.lean`, `Props/WinPure.lean`): `C44_known_iff`, `C44_record`, `C44_event`, `C44_history_partial`, `C44_two_at_once`, `C44_horizontal_wheel`.

### C45. Windows cursor arithmetic (partial)

Saturating conversions between `usize` and `i16`; arithmetic.

*Limits.* All conversions and counts proved; move_left/move_up proved within the edge, refuted beyond it (C45_move_backward_outside).

Theorems (`Props/WinPure.lean`): `C45_conversions`, `C45_round_trip`, `C45_move_forward`, `C45_move_backward_partial`, `C45_move_backward_outside`, `C45_line_end`, `C45_screen_end`, `C45_negative`, `C45_line_end_outside`, `C45_screen_end_outside`.

### C46. Windows console modes are restored (proved)

Console calls over schedules, against the console of `Spec/Console.lean`; well-nested uses by induction.

*Limits.* Proved for any nesting of successful uses. Limits proved as such: failed prepare, signals to report and motion tracking are not restored.

Theorems (`Props/WinMode.lean`): `C46_prepare`, `C46_nested`, `C46_errors`, `C46_failed_prepare`, `C46_signals_not_restored`, `C46_motion_not_restored`.

### C47. Windows refresh shows the buffer (partial)

As C18, with the console of `Spec/Console.lean` instead of the terminal emulator, and UTF-16. With failures: the invariant of C20 (all cells but a list of bad ones are on the console as last drawn), kept by a second set of lemmas about code that returns `Err`. Exactly, with two-column characters: the description of `Spec/Stale.lean`, as for C18.

*Limits.* Proved like C18, for sessions whose refreshes succeed, and up to one wrong cell per failed refresh since the last resize when attributes are not refused, text is not cut and no refresh fails between clearing and drawing (C47_repair_partial). With two-column characters the console is described exactly, also when it is wrong (C47_wide_exact), and shows the buffer if and only if no cell was stale (C47_wide_iff); refuted when one is (C47_stale_refuted). Refuted for the cells themselves, for the other failures with more than one wrong cell per failure, for screens opened while attributes are in effect and windows smaller than the buffer (C47_\*_refuted).

Theorems (`Props/WinFail.lean`, `Props/WinShow.lean`, `Props/WinStale.lean`): `C47_repair_partial`, `C47_failed_reset_refuted`, `C47_failed_rest_refuted`, `C47_failed_after_clear_refuted`, `C47_narrow_partial`, `C47_wide_partial`, `C47_read_other`, `C47_read_resize`, `C47_opened_in_color_refuted`, `C47_small_window_refuted`, `C47_failed_call_refuted`, `C47_wide_exact`, `C47_wide_iff`, `C47_stale_refuted`.

### C48. Screen resize events update the buffer (partial)

Reading from a screen on both platforms; the resize from C17.

*Limits.* Resize events proved on both platforms; the repaint needs buffers without torn two-column characters (C17_cut_refuted).

Theorems (`Props/ScreenSession.lean`, `Props/WinScreen.lean`): `C48_read_event`, `C48_read_raw`, `C48_repaint_partial`, `C48_win_read_event`, `C48_win_read_raw`, `C48_win_read_raw_event`.

### C49. Windows key records decode correctly (partial)

Key records as data; induction over the text typed; a relation (KeyTold) that says in every case what is told of a record, shown to be exactly what the function returns.

*Limits.* Proved for text of the basic plane typed without Alt; supplementary characters and AltGr refuted (C49_supplementary_lost, C49_altgr_lost). With Ctrl proved for control codes and refuted for other characters (Ctrl and the digit 1 come as Ctrl-Q). What is told of every key record in every case is C49_key_exact; of every text with and without Ctrl C49_text_exact, C49_ctrl_exact; precisely where the two refuted claims hold C49_text_iff, C49_ctrl_iff.

Theorems (`Props/WinKeys.lean`, `Props/WinPure.lean`): `C49_key_exact`, `C49_text_exact`, `C49_text_iff`, `C49_ctrl_exact`, `C49_ctrl_iff`, `C49_alt_text`, `C49_named`, `C49_up`, `C49_char`, `C49_text_partial`, `C49_supplementary_lost`, `C49_text_refuted`, `C49_altgr_lost`, `C49_ctrl_partial`, `C49_ctrl_refuted`, `C49_ctrl_conflated`, `C49_record`.

### C50. Text reaches a Windows console exactly once (proved)

The write loop with surrogate pairs over arbitrary answers of `WriteConsoleW`; induction over the units left.

*Limits.* Includes a proved limit: a console that accepts nothing without an error makes write_str loop for ever (C50_no_progress).

Theorems (`Props/WinText.lean`): `C50_written`, `C50_failed`, `C50_returns`, `C50_no_progress`, `C50_shown`, `C50_styled`.

### C51. Windows control signals are reported, superseded or kept (proved)

The control handler runs at any step of a schedule. A timeline of handled events, reports and the one kept; invariant over histories of all calls. Errors: `Lemmas/WinRefused.lean`, as for C58.

*Limits.* Includes a proved defect next to the claim: C51_read_raw_refuted.

Theorems (`Props/WinRefused.lean`, `Props/WinSignal.lean`): `C51_call_error`, `C51_accounted`, `C51_immediate`, `C51_wait_immediate`, `C51_handled`, `C51_timeout`, `C51_read_raw_refuted`.

### C52. A Windows screen leaves the console as it was (proved)

Life of a screen over console calls; the effect of each on the console, whatever else happens to other parts of it.

*Limits.* Proved for sessions whose calls succeed; the failures that leave the console changed are proved as limits (C52_failed_restore, C52_failed_open).

Theorems (`Props/WinSession.lean`): `C52_open`, `C52_session`, `C52_failed_restore`, `C52_failed_open`.

### C53. Windows attributes in effect (proved)

The attribute calls against the console; refinement to the same fold as C21.

*Limits.* Includes a proved limit: a failed attribute call is not made again (C53_not_retried).

Theorems (`Props/WinAttr.lean`): `C53_in_effect`, `C53_failed`, `C53_new`, `C53_not_retried`.

### C54. Windows cursor and erase commands do what they say (partial)

Each command as a program over console calls; its effect on the console's buffer, cell by cell.

*Limits.* All calls but clear_screen proved without restriction; clear_screen proved when the window is the whole buffer, and otherwise if there is no text below the cursor and the lines can be scrolled away; refuted in the other cases (C54_clear_screen_\*_refuted). What clear_screen does in every case, and exactly when the window is clear after it, is proved (C54_clear_screen_exact).

Theorems (`Props/WinClear.lean`, `Props/WinErase.lean`): `C54_clear_screen_exact`, `C54_move_cursor`, `C54_first_column`, `C54_move_forward`, `C54_move_backward`, `C54_move_failed`, `C54_cursor_mode`, `C54_line_end`, `C54_screen_end`, `C54_erase_failed`, `C54_clear_screen_full`, `C54_clear_screen_partial`, `C54_clear_screen_preserves`, `C54_size`, `C54_no_panic`, `C54_clear_screen_below_refuted`, `C54_clear_screen_scroll_refuted`, `C54_clear_screen_attrs_refuted`.

### C55. Drawing calls change only what they name (proved)

Frame conditions of every drawing call, against a picture (cells, cursor, attributes) with its own semantics.

Theorems (`Props/BufferOps.lean`): `C55_exact`, `C55_shown`, `C55_at`, `C55_append`, `C55_styled`.

### C56. Dropping a screen's write guard shows what was drawn (proved)

Drop of the write guard and `Screen::refresh` on both platforms, in terms of one refresh. Errors on Windows: `Lemmas/WinRefused.lean`, as for C58.

Theorems (`Props/ScreenGuard.lean`, `Props/WinRefused.lean`): `C56_drop`, `C56_drop_after_error`, `C56_drop_no_error`, `C56_refresh_call`, `C56_refresh_call_error`, `C56_draw`, `C56_guard_refresh`, `C56_guard_cursor_mode`, `C56_session`, `C56_win_drop`, `C56_win_drop_after_error`, `C56_win_refresh_call`, `C56_win_refresh_call_error`, `C56_win_draw`, `C56_win_guard_refresh`, `C56_win_guard_cursor_mode`, `C56_win_session`, `C56_win_call_error`.

### C57. A Unix terminal shows what was written to it (proved)

A page: what calls on any terminal ask for, in terms of themes. The writer's log is played on a terminal emulator (`Spec/Direct.lean`); simulation, call by call, with C21 for the attributes. That no call fails: case by case (`Lemmas/Succeed.lean`), with C21 again.

Theorems (`Props/Direct.lean`, `Props/Succeed.lean`): `C57_shown`, `C57_received`, `C57_calls_succeed`.

### C58. A Windows console shows the same page a Unix terminal does (proved)

The page of C57 (`Spec/Direct.lean`) against the buffer of the console (`Spec/Console.lean`): simulation, call by call, from the effects of C50, C53 and C54; the comparison of both platforms follows from C57. Errors: a property of code closed under sequencing (an error comes from a refusal, which ends the call), for every method, then induction over the history (`Lemmas/WinRefused.lean`).

Theorems (`Props/DirectWin.lean`, `Props/WinRefused.lean`): `C58_shown`, `C58_same`, `C58_call_error`, `C58_errors`.

### C59. A Unix screen shows what was asked for, whatever the window and the signals do (proved)

A history of calls on a screen and changes of the window (`Spec/Live.lean`), over the model of the system (`Model/Unix.lean`). Invariant: the screen's records describe some terminal, which is the real one once the last size is known and the screen has been cleared; opening, each call and each change of size keep it. Two-column characters: conditions on the screen's data alone (`Spec/LiveWide.lean`), with the same proof, generic in the invariant of C18 without or with two-column characters (`CalmScr`).

Theorems (`Props/Live.lean`): `C59_live_screen`, `C59_live_wide`.

### C60. Several threads using one terminal amount to one thread making their sessions one after another (proved)

Over the transition system of C38 (`Model/Locks.lean`). Invariant: the uses so far are complete sessions and the part of the lock's owner; a thread about to release the write lock has just ended its session. Calls are then put in for uses and C57 applies.

Theorems (`Props/Serial.lean`, `Props/WinLocks.lean`): `C60_serial`, `C60_one_thread`, `C60_shown`, `C60_win_serial`, `C60_win_one_thread`, `C60_win_shown`.

### C61. A screen learns of every change of the window's size (partial)

`Spec/SizeKnown.lean` over the model of `src/unix/terminal.rs`. Invariant: the last signal recorded is the last one handled, and size agreement, a pending SIGWINCH, or a SIGWINCH that another signal followed. Kept by each system call, hence by each method, by induction over the history. Refuted: a change during `Screen::new` before the handler is installed, a SIGWINCH overwritten by another signal, a failing ioctl after the signal was taken.

*Limits.* Proved when no size change is missed during Screen::new, no read fails with an OS error and no other signal follows the last SIGWINCH before it is taken; each of these is needed (C61_missed_while_opening, C61_superseded, C61_lost_by_failure). The guarantee starts afresh at any moment at which the screen has the size of the window (C61_size_from_partial), and a size that was missed stays unknown until the next SIGWINCH, whatever is called (C61_stays_unknown).

Theorems (`Props/SizeKnown.lean`): `C61_size_partial`, `C61_size_from_partial`, `C61_stays_unknown`, `C61_next_read`, `C61_next_raw`, `C61_wait`, `C61_missed_while_opening`, `C61_superseded`, `C61_lost_by_failure`.

### C62. A screen holds exactly the picture its drawing calls describe (partial)

`Spec/TextRef.lean`: a reference for every drawing call as a function on pictures (cell at each position, cursor, attributes), no indices or loops. The buffer refines it, by induction over texts and histories; the exclusions are shown to be exactly where one character differs from the reference. With C59 the picture is what the terminal shows, also with two-column characters.

*Limits.* Proved for histories without a two-column character meeting the end of a line, a combining mark after a two-column character, or a text with attributes that is cut off. The first two are shown to be exactly the characters that go wrong (C62_exactly_when), the third is refuted (C62_cut_off).

Theorems (`Props/Api.lean`, `Props/TextRef.lean`): `C62_methods_partial`, `C62_page_partial`, `C62_call_partial`, `C62_result_partial`, `C62_exactly_when`, `C62_narrow_partial`, `C62_seen`, `C62_seen_wide`, `C62_cut_off`.

### C63. The public writing methods do what they are documented to do, and have done it when they return (proved)

`Spec/Api.lean`: what each method asks for, as a call of C57. A relation between traces of methods and traces of calls on guards (a release after each method, nothing for a move by zero); the page of the former is that of the latter; C57 and C58 apply. Delivery: invariant that the system takes all, and the flush of the last release.

*Limits.* Delivery is proved for an operating system that takes output; without that a method can return Ok although nothing arrived (C63_error_ignored).

Theorems (`Props/Api.lean`): `C63_shown`, `C63_delivered`, `C63_win_shown`, `C63_same`, `C63_screen`, `C63_error_ignored`.

### C64. A panic in a program that uses a screen still gives the terminal back (partial)

`Model/Unwind.lean`: code that may panic, with poisoned locks and abort on a panic during a panic, wrapped around the drops of `Model/ScreenUnix.lean` and `Model/WinScreen.lean`. Which locks are poisoned: an invariant of the executions of `Model/Locks.lean`, against a specification on traces (`Spec/Unwind.lean`: somebody panicked while holding the lock). Without poisoned locks of the terminal the wrapped drop equals the plain one, so C37 and C52 apply; with one it aborts or panics before it has done anything.

*Limits.* Proved when no guard of the terminal is held at the panic (C64_panic_restores_partial, C64_shared_drop); refuted otherwise: the drop finds a poisoned lock and panics, which aborts the process with the terminal in raw mode (C64_guard_panic_aborts, C64_guard_panic_refuted); a mouse report with coordinate 0 is enough (C64_report_aborts). Which locks are poisoned is proved for all executions (C64_poisoned_iff, C64_win_poisoned_iff).

Theorems (`Props/Unwind.lean`, `Props/WinLocks.lean`): `C64_poisoned_iff`, `C64_panic_restores_partial`, `C64_guard_panic_aborts`, `C64_shared_drop`, `C64_shared_drop_panics`, `C64_win_panic_restores_partial`, `C64_win_guard_panic_aborts`, `C64_guard_panic_refuted`, `C64_report_aborts`, `C64_win_poisoned_iff`.

### C65. A call leaves no lock behind but those of the guards it returns (proved)

Over the transition system of C38, for all executions, careful or not. Every path through the code of a call is followed with the set of locks held (`Leaves`); steps of other threads do not change the set.

Theorems (`Props/Locks.lean`, `Props/WinLocks.lean`): `C65_guards`, `C65_dead_holds_nothing`, `C65_win_guards`, `C65_win_dead_holds_nothing`.

### C66. File descriptors of terminals are closed once, and no others are (partial)

`Model/Fds.lean`: the table of descriptors of the process and the terminals in it. The specification (`Spec/Fds.lean`) knows files and who has them, not descriptors; a simulation by induction over the program, for any lawful choice of numbers.

*Limits.* Proved for all programs and all choices of the system, including what exactly is left open (C66_files); the last sentence of the property is proved if no terminal is dropped with a poisoned write lock (C66_no_leak_partial) and refuted otherwise: the drop panics before it closes (C66_poisoned_drop_leaks).

Theorems (`Props/Fds.lean`): `C66_files`, `C66_no_leak_partial`, `C66_poisoned_drop_leaks`.

### C67. Programs that cannot deadlock on one platform cannot deadlock on the other (partial)

`Model/WinLocks.lean`: the calls of `Model/Locks.lean` with the code of the Windows implementation, on the same transition system. The locks taken on Windows are among those taken on Unix; without reads they are the same.

*Limits.* From Unix to Windows proved for all programs (C67_unix_to_win_partial), from Windows to Unix for those that do not read while they hold a write guard (C67_win_to_unix_partial); without that refuted (C67_win_tested_deadlocks): reading takes the write lock on Unix only, although prepare takes it on Windows for the sake of such programs.

Theorems (`Props/WinLocks.lean`): `C67_unix_to_win_partial`, `C67_win_to_unix_partial`, `C67_win_tested_deadlocks`.

### C68. An xterm shows the page the program asked for, from the bytes it receives (proved)

`Spec/Vt.lean`: a terminal that reads bytes (UTF-8, control characters, control sequences, private modes, two buffers, margins) and the strings of the terminfo entry. It simulates the terminal of C57, which is given commands and text as items (`Lemmas/Vt*.lean`); with C57, C60 and C63.

Theorems (`Props/Vt.lean`): `C68_shown`, `C68_public`, `C68_threads`.

### C69. A screen on an xterm shows what was asked for, from the bytes it receives (proved)

The xterm of C68 (`Spec/Vt.lean`) in a history with changes of size between any two bytes (`Spec/VtLive.lean`). It simulates the terminal of C59 (`Lemmas/VtLive.lean`, `VtOpen.lean`); what survives a change of size in the middle of a sequence: `Lemmas/VtReads.lean`; what a screen sends, and that cells hold no escape character: `Lemmas/VtTame.lean`. With C59, without and with two-column characters.

Theorems (`Props/VtLive.lean`): `C69_live_screen`, `C69_live_wide`.

### C70. An xterm is as it was before a screen was opened (proved)

The xterm of C69. What opening, calls and closing hand over, and what the xterm saves, keeps and gives back (`Lemmas/VtClose.lean`); modes through `devModes` of C34.

Theorems (`Props/VtClose.lean`): `C70_after`, `C70_modes`.

### C71. What a call does to the locks and the terminal, whatever other threads do (proved)

The transition systems of C38 for Unix and Windows; what a call is to do is composed from the documented locks, what was asked and which guards the result has (`Spec/CallSteps.lean`). The steps of one thread in any execution are a word of the language of its code; a poisoned lock leaves only code that takes locks and panics (`Lemmas/CallSteps.lean`).

Theorems (`Props/CallSteps.lean`): `C71_does`, `C71_poisoned`, `C71_guards_returned`, `C71_panic`, `C71_win_does`, `C71_win_poisoned`, `C71_win_guards_returned`, `C71_win_panic`.

### C72. What the user does at an xterm is what the program is told (proved)

The xterm of C69 sends bytes for what its user does, depending on its modes (`Spec/VtInput.lean`). Its modes during a history of a screen: an invariant over `devModes` (`Lemmas/VtModes.lean`). The table that `sequences` builds of xterm's entry has no string that begins with another, so that what the user does is how the input is to be read (`Lemmas/VtInput.lean`); then as C29, for screens (`Lemmas/ScrInput.lean`).

Theorems (`Props/VtInput.lean`): `C72_modes`, `C72_sends`, `C72_events`, `C72_nothing_lost`, `C72_terminal`, `C72_escape_apart`, `C72_escape_needed`, `C72_keypad_needed`.

### C73. What the user does at a Windows console is what the program is told (proved)

The console's queue (Spec/Console.lean) is accounted for by the record of calls (`queue_account`); every call is either inert or takes what its result shows (`Lemmas/WinUser.lean`). Which records the console queues for what the user does, given the input mode: `Queued` (`Spec/WinUser.lean`), following Microsoft's documentation; by induction on it each record read gives the event of its act (`Lemmas/WinUserActs.lean`), with the mode from C46.

Theorems (`Props/WinUser.lean`): `C73_records`, `C73_events`, `C73_all`, `C73_screen`, `C73_nothing_missed`, `C73_stale_button`.

### C74. A SequenceMap whose keys the program rewrites stays a map (partial)

Strictly sorted slices: as C01-C03, from any map (`C74_rewritten_map_partial`). Slices with equal keys: every call for every answer of the search that the standard library allows (`Spec.SearchOk`), of which the modelled halving search is one (`C74_search_contract`). The full statement is false for them: `C74_removed_key_stays`, `C74_undecided_wrong`.

*Limits.* The full statement is false: the documentation asks only for sorted keys, and with two equal keys a removed key is still there (C74_removed_key_stays, for every search the standard library allows) and find can answer Undecided with no longer key (C74_undecided_wrong). Strictly sorted slices: C74_rewritten_map_partial, everything. Sorted slices with equal keys: exactly what get, find, insert and remove do is C74_get_any, C74_find_any, C74_insert_any, C74_remove_any.

Theorems (`Props/SequencesMut.lean`): `C74_search_contract`, `C74_rewritten_map_partial`, `C74_get_any`, `C74_insert_any`, `C74_remove_any`, `C74_removed_key_stays`, `C74_find_any`, `C74_undecided_wrong`.

### C75. What the program is told of keys with modifiers at an xterm (proved)

What an xterm sends for a key with modifiers (`Spec/VtMods.lean`) is what it would send for Escape and typed characters, and no string of the table begins there (checked for all keys and modifiers; `Lemmas/VtMods.lean`). Then C72, whose condition on Escape is only that what follows does not begin with the string of another key (`EscapeClear`).

Theorems (`Props/VtMods.lean`): `C75_told`, `C75_terminal`, `C75_nothing_lost`, `C75_told_apart`.

### C76. On Windows handles are used only while they are open, and what was made is closed (partial)

The handles open are read off the record of console calls alone (`Spec/WinHandles.lean`, `Handles.follow`). Every function of the terminal and the screen is shown to use only the input handle and the writer's handle, to open and close nothing and to leave the writer's handle alone (`UsesOnly`, `ScrOnly`: predicates closed under sequencing, with loops by induction); `enter_screen`, `Screen::new`, `exit_screen`, the drops and `Terminal::new` are then followed through every error branch (`Lemmas/WinHandlesEnds.lean`). False in two ways, each with a history: a failed `Screen::new` leaves its buffer open, and the invalid handle with which `CreateConsoleScreenBuffer` fails is taken for a success and used. A buffer is left open only if one of the named calls failed after it was made.

*Limits.* Proved for histories in which the system never answers with the invalid handle; C76_invalid_used shows the use of the invalid handle, C76_leaked a buffer left open, C76_left_open which calls must have failed for that, C76_all_closed that without failures everything is closed. C76_open_calls and C76_unopened_calls give what Screen::new does to buffers, C76_unopened_closed exactly when a screen that could not be opened leaves its buffer open, C76_drop_calls gives the calls of Drop for Screen exactly, and C76_drop_closes exactly when the buffer of a screen is closed.

Theorems (`Props/WinDrop.lean`, `Props/WinHandles.lean`, `Props/WinOpening.lean`): `C76_drop_calls`, `C76_drop_closes`, `C76_handles_partial`, `C76_left_open`, `C76_all_closed`, `C76_leaked`, `C76_invalid_used`, `C76_open_calls`, `C76_unopened_calls`, `C76_unopened_closed`.

### C77. A Windows screen recovers from everything the console did behind its back (proved)

A step relation with changes of the console between any two calls of the screen and before and after every call of the console that a refresh makes (`Spec/WinLive.lean`); calls whose effect on a console of unknown contents is not specified may do anything but change its size or attributes (`Con.May`). Invariant `WLiveInv`: the data of the screen are in order always; if its knowledge is current, the console shows what the back buffer says or is going to be cleared. A refresh on a console of any size keeps the first part, call by call (`Lax`, `loose_refresh`), a report restores the second.

*Limits.* Narrow characters without further conditions; two-column characters under the conditions of C47_wide_partial. C77_report_needed shows that the report of the size is needed. Windows smaller than the buffer are outside (see C47_small_window_refuted).

Theorems (`Props/WinLive.lean`): `C77_live`, `C77_live_wide`, `C77_buffer`, `C77_returns`, `C77_read_other`, `C77_read_resize`, `C77_read_raw_event`, `C77_report_needed`.

### C78. A theme holds what was asked for last, and setting it is making those requests (proved)

Specification by the last request in the list (`LastAsked`, shown to determine the theme). Induction on the chain from its end; on the screen by induction on the chain, on the terminals by C21 and C53.

Theorems (`Props/Theme.lean`): `C78_started`, `C78_built`, `C78_new`, `C78_unique`, `C78_on_screen`, `C78_cells`, `C78_on_unix`, `C78_on_windows`.

### C79. Several terminals of one program keep out of each other's way (partial)

The process is modelled as devices, terminals and what all share (`Model/Several.lean`); a call on a terminal is the call of `Model/Unix.lean` on its view of the process. Signals by the one-place reference of C31 over all terminals, bytes by shares that partition the input of each device, both by induction on the program; nesting by induction on well-nested programs with the invariant that every prepared terminal has its handlers. Non-interference by running two processes that agree on some terminals side by side.

*Limits.* Signals (C79_one_place, C79_told_once, C79_no_other_told) and bytes (C79_each_byte_once) proved without restriction. Modes and handlers proved when the terminals together are restored in the reverse order of their preparation (C79_nested_partial, C79_history_partial); in the order of preparation refuted, and exactly what is left proved (C79_crossed). That every prepared terminal is told of a change of size is refuted (C79_other_not_told): the first to read takes the signal. Beyond what is shared, terminals do not interfere (C79_own).

Theorems (`Props/Several.lean`): `C79_one_place`, `C79_told_once`, `C79_no_other_told`, `C79_each_byte_once`, `C79_own`, `C79_nested_partial`, `C79_history_partial`, `C79_crossed`, `C79_other_not_told`.

### C80. Several terminals of one Windows program keep out of each other's way (partial)

The process is modelled as terminals and what all share (`Model/WinSeveral.lean`); a call on a terminal is the call of `Model/Win.lean` on its view of the process. Signals by the bookkeeping of C51 over all terminals, by induction on the calls; modes and registrations by induction on the uses, with what each `prepare` and `restore` does to a console (C46). Non-interference by running two processes that agree on some terminals side by side.

*Limits.* Signals (C80_accounted, C80_told_once, C80_immediate) and registrations of the handler, in any order of restoring (C80_handlers), proved without restriction. Input mode proved when the terminals together are restored in the reverse order of their preparation (C80_nested_partial); in the order of preparation refuted, and exactly what is left proved (C80_crossed). That a signal goes to a terminal that has asked for it is refuted (C80_other_told): the first to read takes it. Which signals are handled is exactly characterised (C80_handled: those of the latest prepare, also once it is restored), so that a signal somebody has asked for may not be handled (C80_taken_away_refuted). Beyond what is shared, terminals do not interfere (C80_own); each remembers the buttons for itself, so that a release read on another terminal than the press is not told (C80_release_lost).

Theorems (`Props/WinSeveral.lean`): `C80_accounted`, `C80_told_once`, `C80_immediate`, `C80_handled`, `C80_own`, `C80_nested_partial`, `C80_handlers`, `C80_crossed`, `C80_other_told`, `C80_taken_away_refuted`, `C80_release_lost`.

### C81. The same program draws the same picture on Unix and on Windows (proved)

A relation between the two models: `Spec/Portable.lean` says when a console shows the picture of a terminal, with the attributes of one expressed in those of the other. From the theorems about each system (C59 and C77; C18 and C47 for the stale cells), whose results both are determined by the same drawing calls; that what a window shows after a change of its size does not matter is proved by induction on the steps.

*Limits.* C81_live for one-column characters, C81_live_wide for two-column characters under the conditions of C59 and C77, C81_exact also where cells are torn (all calls succeeding, refreshes at the same times). Italic and underline do not exist on the console and are not compared.

Theorems (`Props/Portable.lean`): `C81_live`, `C81_live_wide`, `C81_exact`.

### C82. The same user is told of in the same way on Unix and on Windows (proved)

From C72 and C73: what is told on either system is determined by a prefix of the same acts. `Spec/PortableInput.lean` says which acts at a console are those of the user.

*Limits.* C82_events for screens, C82_terminal for terminals, C82_held_refuted for keys with modifiers. Changes of size and signals are not compared: a console tells every size, on Unix several changes may be told as one (C61).

Theorems (`Props/PortableInput.lean`): `C82_events`, `C82_terminal`, `C82_held_refuted`.

### C83. What the user does is what the user sees (proved)

`C83_xterm` joins C72 (what is told) and C69 (what is shown) over one history, `C83_xterm_wide` is the same with two-column characters, `C83_console` joins C73 and C77, `C83_console_wide` is the same with two-column characters, and `C83_same` joins these. Programs are any functions from events to drawing calls (`Paints`, Spec/Typed.lean). A history of calls and changes of the buffer on a console (`WHist`) is turned into the steps of C77 in Lemmas/Typed.lean.

*Limits.* C83_xterm, C83_xterm_wide (two-column characters, under the conditions of C59), C83_console, C83_console_wide (two-column characters, under the conditions of C77) and C83_same. On the console calls return Ok (C77 is about refreshes that fail). The visibility of the cursor is C69/C80.

Theorems (`Props/Typed.lean`, `Props/TypedWide.lean`): `C83_xterm`, `C83_console`, `C83_same`, `C83_xterm_wide`, `C83_console_wide`.

## 4. Tests of the theorems against wrong programs

The model is edited the way a realistic bug would change the code (a wrong comparison, a missing
update, two statements exchanged, a wrong capability or bit, an error ignored), in a copy outside
`/verif`, and modules that depend on it are rebuilt. If the theorems of a property still prove although what the
property says has become false, they are tightened. `seeded/LOG.jsonl` has one line per attempt. Edits after
which everything still proves and the properties are still true are recorded as harmless.

How to read a line of the log:

* `theorems_failed` lists theorems whose proof, or the proof of a lemma they use, no longer checks after
  the edit. This is evidence that they depend on what was edited. It does not show that their statement
  has become false: a proof may break although the statement is still true, for example because a
  hypothesis excludes the edited case. The statements were not tested one by one in this way.
* In the earlier batches all modules that depend on the edit were rebuilt. To save time, in the later ones
  (the second half of the log, and part of the first) only the modules with theorems of the properties in
  `claims_broken`, and what these import. There `theorems_failed` is not complete, and an empty list says
  nothing of other properties.
* `claims_broken` was written down with the edit, before the run, and corrected afterwards in some cases.
## 5. Axioms of each theorem

As printed by `#print axioms`.

* none (6 theorems): C03_cloned_same, C39_lock, C39_lock_write, C39_try_lock_write, C40_windows_none, C78_new.
* `propext` (9 theorems): C03_classification_unique, C13_carriage_return, C13_newline, C24_flush_empties, C31_fate_partial, C38_win_read_event_deadlocks, C40_windows_wraps, C55_append, C66_poisoned_drop_leaks.
* `propext`, `Quot.sound` (138 theorems): C01_finite_map, C03_find_classifies, C04_collect_last, C04_from_vec_first, C06_debug_injective, C07_ctrl_letter, C07_unctrl_any, C08_prefixes, C09_area, C10_newline_at_limit_panics, C10_wide_on_one_column_panics, C12_wide_excess_overwrites, C13_invisible, C14_resize_tears, C16_at_cells, C16_attributes_follow_partial, C16_cells, C16_overflow_leaks, C16_styled_cells, C17_cut_refuted, C18_cursor_refuted, C18_line_end_refuted, C23_flush_err_iff, C23_flush_ok_iff, C23_flush_panics_iff, C23_flush_waits_iff, C23_in_order_partial, C23_kept_iff_partial, C23_large_text, C23_short_write_never_succeeds, C23_short_write_repeats, C23_text_partial, C24_drop_flushes, C32_already_pending, C32_false_partial, C32_missed_wakeup, C38_for_ever, C38_no_deadlock_partial, C38_read_event_deadlocks, C38_win_for_ever, C38_wrong_order_deadlocks, C40_total_wait, C40_windows_exact_partial, C41_moves_exactly, C41_saturates, C42_expands, C42_is_guard, C42_is_guard_err, C42_screen, C42_screen_guard, C42_terminal_err, C42_terminal_ok, C42_terminal_session, C42_win, C42_writeln, C43_swap, C43_swap_twice, C43_word, C43_word_unique, C44_history_partial, C44_horizontal_wheel, C44_two_at_once, C45_conversions, C45_negative, C45_round_trip, C46_failed_prepare, C46_motion_not_restored, C46_nested, C46_signals_not_restored, C47_read_other, C47_read_resize, C48_win_read_raw, C49_named, C49_supplementary_lost, C49_text_refuted, C49_up, C51_read_raw_refuted, C52_failed_open, C52_failed_restore, C52_session, C53_new, C54_clear_screen_below_refuted, C54_cursor_mode, C54_size, C55_styled, C56_draw, C56_drop, C56_drop_after_error, C56_drop_no_error, C56_guard_cursor_mode, C56_guard_refresh, C56_refresh_call_error, C56_session, C56_win_draw, C56_win_drop, C56_win_drop_after_error, C56_win_guard_cursor_mode, C56_win_guard_refresh, C56_win_refresh_call_error, C56_win_session, C57_received, C61_wait, C62_cut_off, C63_delivered, C63_error_ignored, C63_screen, C64_poisoned_iff, C64_win_guard_panic_aborts, C64_win_panic_restores_partial, C64_win_poisoned_iff, C65_guards, C65_win_guards, C66_no_leak_partial, C67_win_tested_deadlocks, C67_win_to_unix_partial, C71_guards_returned, C71_win_guards_returned, C73_stale_button, C74_undecided_wrong, C75_told_apart, C76_drop_calls, C76_drop_closes, C76_handles_partial, C76_invalid_used, C76_leaked, C76_left_open, C77_read_other, C77_read_resize, C78_built, C78_cells, C78_on_screen, C78_started, C78_unique, C80_nested_partial, C80_other_told, C80_own, C80_release_lost, C80_taken_away_refuted.
* `propext`, `Classical.choice`, `Quot.sound` (336 theorems): C02_sequences_sorted, C05_containsAll_iff, C05_contains_iff_mem, C05_eq_iff_same_members, C05_intersects_iff, C05_isEmpty_iff, C06_debug_text, C06_names_are_members, C07_ctrl_any, C07_ctrl_unctrl, C07_isCtrl_iff, C07_keyOf_unique, C07_key_injective, C07_key_of_char, C07_no_upper_ctrl, C08_prefixes_exact, C09_next_previous, C09_next_walks_all, C09_outOfBounds_iff, C09_rowMajor_exact, C10_draw_total_partial, C10_panics_iff, C10_sound, C11_others_untouched, C11_plain_text, C11_styled_text, C12_any_text_partial, C12_below_last_line, C12_cut_exactly, C12_text_cut_off_partial, C12_write_at_outside, C13_tab, C13_tab_outside, C14_never_torn_partial, C14_wide_fits, C14_wrap_duplicates, C14_wrap_exact, C15_ignored_at_origin, C15_marks_attach_partial, C15_wide_base_exact, C15_wide_base_misses, C16_attributes_exact, C16_from_new, C17_repaints_partial, C17_resize, C17_win_repaints_partial, C18_narrow_partial, C18_refresh_returns, C18_stale_refuted, C18_wide_exact, C18_wide_iff, C18_wide_partial, C19_only_changed, C19_second_refresh_silent, C19_win_only_changed, C19_win_second_refresh_silent, C20_each_refresh, C20_exact, C20_lost_cell_refuted, C20_lost_stays, C20_repair_partial, C20_wrong_only_if_lost, C21_attributes_follow, C21_call, C21_calls_succeed, C22_calls_return, C22_redundant_silent, C22_repeat_silent, C24_calls_flush, C24_contiguous_partial, C24_exclusive, C24_screen_flush, C24_win_exclusive, C25_bytes_once, C26_first_char, C26_longest_key, C26_terminal_table, C27_text, C28_no_panic_partial, C28_report, C28_zero_coordinate_panics, C29_chunks_decide, C29_cut_exact, C29_pieces_complete_partial, C29_pieces_partial, C29_same_events_partial, C29_split_sequence, C29_text_chunks_partial, C29_text_completes_partial, C29_turns, C30_cases, C30_completed, C30_ill_formed_error, C30_raw_recovers_partial, C30_read_event_stuck, C30_unfinished_waits, C31_at_most_once, C31_latest_first, C31_latest_first_raw, C31_not_lost_partial, C31_one_place, C31_signal_lost, C32_interrupted, C32_window, C33_continue, C33_continue_idle, C33_read_resize, C33_reported_iff, C33_resize, C34_device_modes_partial, C34_history, C34_inner_disables_mouse, C34_modes_after, C34_nested_partial, C34_not_put_back, C34_report_not_restored, C35_default, C35_prepare_establishes, C36_failed_prepare_changes, C36_failed_prepare_partial, C36_first_steps_partial, C36_how_far, C37_exit_skipped, C37_failed_new_how_far, C37_failed_new_partial, C37_failed_new_raw, C37_how_far, C37_modes_kept, C37_open, C37_session_partial, C37_zero_lines_panics, C38_deadlock_iff, C38_progress_partial, C38_win_deadlock_iff, C38_win_no_deadlock_partial, C38_win_progress_partial, C40_unix_exact_partial, C40_unix_panics_iff, C40_windows_exact, C43_none, C44_event, C44_known_iff, C44_record, C45_line_end, C45_line_end_outside, C45_move_backward_outside, C45_move_backward_partial, C45_move_forward, C45_screen_end, C45_screen_end_outside, C46_errors, C46_prepare, C47_failed_after_clear_refuted, C47_failed_call_refuted, C47_failed_reset_refuted, C47_failed_rest_refuted, C47_narrow_partial, C47_opened_in_color_refuted, C47_repair_partial, C47_small_window_refuted, C47_stale_refuted, C47_wide_exact, C47_wide_iff, C47_wide_partial, C48_read_event, C48_read_raw, C48_repaint_partial, C48_win_read_event, C48_win_read_raw_event, C49_alt_text, C49_altgr_lost, C49_char, C49_ctrl_conflated, C49_ctrl_exact, C49_ctrl_iff, C49_ctrl_partial, C49_ctrl_refuted, C49_key_exact, C49_record, C49_text_exact, C49_text_iff, C49_text_partial, C50_failed, C50_no_progress, C50_returns, C50_shown, C50_styled, C50_written, C51_accounted, C51_call_error, C51_handled, C51_immediate, C51_timeout, C51_wait_immediate, C52_open, C53_failed, C53_in_effect, C53_not_retried, C54_clear_screen_attrs_refuted, C54_clear_screen_exact, C54_clear_screen_full, C54_clear_screen_partial, C54_clear_screen_preserves, C54_clear_screen_scroll_refuted, C54_erase_failed, C54_first_column, C54_line_end, C54_move_backward, C54_move_cursor, C54_move_failed, C54_move_forward, C54_no_panic, C54_screen_end, C55_at, C55_exact, C55_shown, C56_refresh_call, C56_win_call_error, C56_win_refresh_call, C57_calls_succeed, C57_shown, C58_call_error, C58_errors, C58_same, C58_shown, C59_live_screen, C59_live_wide, C60_one_thread, C60_serial, C60_shown, C60_win_one_thread, C60_win_serial, C60_win_shown, C61_lost_by_failure, C61_missed_while_opening, C61_next_raw, C61_next_read, C61_size_from_partial, C61_size_partial, C61_stays_unknown, C61_superseded, C62_call_partial, C62_exactly_when, C62_methods_partial, C62_narrow_partial, C62_page_partial, C62_result_partial, C62_seen, C62_seen_wide, C63_same, C63_shown, C63_win_shown, C64_guard_panic_aborts, C64_guard_panic_refuted, C64_panic_restores_partial, C64_report_aborts, C64_shared_drop, C64_shared_drop_panics, C65_dead_holds_nothing, C65_win_dead_holds_nothing, C66_files, C67_unix_to_win_partial, C68_public, C68_shown, C68_threads, C69_live_screen, C69_live_wide, C70_after, C70_modes, C71_does, C71_panic, C71_poisoned, C71_win_does, C71_win_panic, C71_win_poisoned, C72_escape_apart, C72_escape_needed, C72_events, C72_keypad_needed, C72_modes, C72_nothing_lost, C72_sends, C72_terminal, C73_all, C73_events, C73_nothing_missed, C73_records, C73_screen, C74_find_any, C74_get_any, C74_insert_any, C74_remove_any, C74_removed_key_stays, C74_rewritten_map_partial, C74_search_contract, C75_nothing_lost, C75_terminal, C75_told, C76_all_closed, C76_open_calls, C76_unopened_calls, C76_unopened_closed, C77_buffer, C77_live, C77_live_wide, C77_read_raw_event, C77_report_needed, C77_returns, C78_on_unix, C78_on_windows, C79_crossed, C79_each_byte_once, C79_history_partial, C79_nested_partial, C79_no_other_told, C79_one_place, C79_other_not_told, C79_own, C79_told_once, C80_accounted, C80_crossed, C80_handled, C80_handlers, C80_immediate, C80_told_once, C81_exact, C81_live, C81_live_wide, C82_events, C82_held_refuted, C82_terminal, C83_console, C83_console_wide, C83_same, C83_xterm, C83_xterm_wide.
