{"id": "C01", "title": "SequenceMap is a finite map", "statement": "After any sequence of insert, remove, get_mut updates and entry-API calls on a SequenceMap created by new, `get(k)` returns exactly the value most recently stored for k and not since removed, and every insert/remove/entry call returns the old value or pair that a plain key-to-value map would return.", "quantifier": "every finite history of SequenceMap operations over arbitrary string keys and values, and every queried key", "why_tests_cant": "The history and key space are unbounded; correctness depends on binary search finding the right slot at every size and every key ordering.", "anchors": ["src/sequence.rs: SequenceMap::{insert,remove,get,get_mut,entry}, Entry, OccupiedEntry, VacantEntry"]}
{"id": "C02", "title": "SequenceMap::sequences is always sorted and duplicate free", "statement": "The slice returned by `sequences()` is strictly increasing by key (byte order) after construction by new, From<Vec> or collect and after any history of insert, remove and entry calls.", "quantifier": "every construction input and every operation history", "why_tests_cant": "It is an inductive invariant over unbounded histories; a test can only check a few maps.", "anchors": ["src/sequence.rs: SequenceMap::sequences, From<Vec<(K,V)>>, FromIterator, insert, remove"]}
{"id": "C03", "title": "SequenceMap::find classifies a query exactly", "statement": "For every map built through the API and every query q: NotFound iff no stored key starts with q; Incomplete iff q is not stored but some stored key starts with q; Found(v) iff q is stored with value v and no other stored key starts with q; Undecided(v) iff q is stored with v and some other stored key starts with q.", "quantifier": "every reachable map, every query string", "why_tests_cant": "`find` looks at a single neighbouring element; that this is enough is an order-theoretic fact about all sorted key sets.", "anchors": ["src/sequence.rs: SequenceMap::find, FindResult"]}
{"id": "C04", "title": "Bulk construction resolves duplicate keys as documented", "statement": "SequenceMap::from(vec) keeps, for every key, the value of its first occurrence in vec; collecting an iterator keeps the value of the last occurrence; no key is lost and none is invented.", "quantifier": "every list of key-value pairs", "why_tests_cant": "Relies on sort stability together with dedup direction, for all lengths and all duplicate patterns.", "anchors": ["src/sequence.rs: From<Vec<(K,V)>> for SequenceMap, FromIterator"]}
{"id": "C05", "title": "SignalSet is the Boolean algebra of sets of signals", "statement": "For all sets built through the API, contains/contains_all/intersects/is_empty and the operators insert, remove, set, |, &, ^, -, ! and extend/collect agree with membership in the set of six signals, and two sets compare equal iff they have the same members.", "quantifier": "every sequence of SignalSet operations and every signal", "why_tests_cant": "Equality being extensional needs an invariant on the representation over all operation histories (e.g. `!` must not set unused bits).", "anchors": ["src/signal.rs: SignalSet, Signal::as_bit, Signal::all_bits"]}
{"id": "C06", "title": "SignalSet Debug output identifies the set", "statement": "Formatting a SignalSet prints exactly its members, each once, in declaration order, separated by ` | `; two sets print the same text iff they are equal.", "quantifier": "every reachable SignalSet", "why_tests_cant": "Injectivity is a statement about all pairs of sets.", "anchors": ["src/signal.rs: impl Debug for SignalSet"]}
{"id": "C07", "title": "Control-character helpers and Key::from(char)", "statement": "ctrl(unctrl_lower(c)) = ctrl(unctrl_upper(c)) = c for every control character; is_ctrl(c) iff c is below U+0020; ctrl of a letter is case-insensitive; Key::from(char) maps each character to exactly one key as documented, is injective except that CR and LF are both Enter, and never produces Ctrl of an upper-case letter.", "quantifier": "every Unicode scalar value", "why_tests_cant": "1.1 million scalars and pairs of them; `as u8` truncation could alias non-ASCII characters.", "anchors": ["src/util.rs: ctrl, is_ctrl, unctrl_upper, unctrl_lower", "src/terminal.rs: impl From<char> for Key"]}
{"id": "C08", "title": "prefixes enumerates all non-empty prefixes", "statement": "prefixes(s) yields exactly the non-empty prefixes of s ending at character boundaries, each once, shortest first, the last being s itself; it yields nothing for the empty string.", "quantifier": "every string", "why_tests_cant": "Unbounded strings with multi-byte characters.", "anchors": ["src/util.rs: prefixes, Prefixes::next"]}
{"id": "C09", "title": "Cursor::next/previous walk the screen", "statement": "For a valid size, starting at Cursor::first and applying next repeatedly visits every in-bounds cell exactly once in row-major order and then returns None at Cursor::last; previous undoes next and next undoes previous; is_out_of_bounds holds exactly outside the rectangle; checked_area is the number of cells exactly when a usize can hold it.", "quantifier": "every valid Size and every cursor in it", "why_tests_cant": "All sizes and positions; boundary behaviour at each line end.", "anchors": ["src/terminal.rs: Cursor::{next,previous,first,last,is_out_of_bounds}, Size::area"]}
{"id": "C10", "title": "Screen drawing never panics", "statement": "On a screen of valid size, no sequence of drawing calls (writes of any text, cursor moves, style changes, clears, resizes to valid sizes) panics, and the cell grid always has exactly lines*columns non-empty cells.", "quantifier": "every history of Screen buffer operations, every text, every valid size", "why_tests_cant": "Index arithmetic for wide characters, tabs and line wrap at every position and size.", "anchors": ["src/buffer.rs: ScreenBuffer::{write_char,write_str,write_at,write_styled,write_styled_at,resize,next_cell}"]}
{"id": "C11", "title": "Plain text lands in consecutive cells", "statement": "write_at(pos, text) with single-width characters stores the k-th character in the k-th cell from pos in row-major order with the attributes in force, leaves every other cell as it was (except that a two-column character just before pos, whose right half is overwritten, becomes a blank), and leaves the cursor just after the last character written; write_styled_at does the same with its own attributes and leaves none in force.", "quantifier": "every size, position in bounds, text of single-width characters, prior buffer contents", "why_tests_cant": "Arbitrary lengths, wrap-around over any number of lines, and frame condition for all other cells.", "anchors": ["src/buffer.rs: ScreenBuffer::{write_at,write_str,write_char,set_cell}", "src/screen.rs: Screen::write_at"]}
{"id": "C12", "title": "Out-of-bounds writes are dropped, not misplaced", "statement": "write_at/write_styled_at at an out-of-bounds position change nothing; text running past the last cell is cut off exactly there and no cell is overwritten by the excess.", "quantifier": "every size, position and text", "why_tests_cant": "Needs to hold for every overflow amount and position.", "anchors": ["src/buffer.rs: ScreenBuffer::{try_cursor_at,write_at,write_styled_at,write_str}"]}
{"id": "C13", "title": "Control characters in screen text", "statement": "\\r moves to column 0, \\n to column 0 of the next line, \\t writes spaces up to the next multiple-of-8 column or the line end, and any other zero-width non-combining character changes nothing.", "quantifier": "every buffer state and every character", "why_tests_cant": "Tab interacts with line end and with wide neighbours for every column and width.", "anchors": ["src/buffer.rs: ScreenBuffer::write_char", "src/priv_util.rs: is_visible"]}
{"id": "C14", "title": "Wide characters occupy two cells of one line and are never torn", "statement": "A width-2 character is stored in one cell, the next cell of the same line becomes a blank placeholder, and the cursor advances by two; if only one column is left it goes to the next line and the leftover column is blank; overwriting either half never leaves a stale half.", "quantifier": "every size, cursor position and buffer contents", "why_tests_cant": "Depends on column parity and neighbours over all histories.", "anchors": ["src/buffer.rs: ScreenBuffer::write_char, Cell::is_wide"]}
{"id": "C15", "title": "Combining marks attach to the preceding character", "statement": "Writing a combining mark appends it to the text of the character written immediately before it, moves no cursor and touches no other cell; at the first cell of the screen it is ignored.", "quantifier": "every state after writing any base character, every combining mark", "why_tests_cant": "All positions (line wraps, after wide characters) must be covered.", "anchors": ["src/buffer.rs: ScreenBuffer::write_char (combining branch)", "src/util.rs: is_combining_mark"]}
{"id": "C16", "title": "Drawn cells carry the attributes in force", "statement": "Each written cell has exactly the colour and style produced by the preceding set_fg/set_bg/set_style/add_style/remove_style/set_theme/clear_attributes calls; write_styled uses its own attributes for its text and leaves no attributes set afterwards.", "quantifier": "every history of attribute and write calls", "why_tests_cant": "State carried across unbounded call histories including failing writes.", "anchors": ["src/buffer.rs: ScreenBuffer::{set_fg,set_bg,set_style,add_style,remove_style,set_theme,clear_attributes,write_styled}"]}
{"id": "C17", "title": "Resize keeps the common region", "statement": "After a resize the cells in the rectangle common to the old and new sizes keep their contents, all other cells are blank, the cursor is unchanged, and the next refresh repaints every visible cell.", "quantifier": "every old size, new size and contents", "why_tests_cant": "Chunked copying with every combination of larger/smaller dimensions.", "anchors": ["src/buffer.rs: ScreenBuffer::resize, resize_buffer, new_buffer", "src/unix/screen.rs: Writer::update_size"]}
{"id": "C18", "title": "After refresh the terminal shows the buffer", "statement": "After any history of drawing calls, resizes and refreshes ending with a successful refresh, the terminal displays in every cell the text and attributes in the buffer, and its cursor is at the screen's cursor (or the last cell if that is out of bounds).", "quantifier": "every history of Screen operations interleaved with refreshes", "why_tests_cant": "Incremental (diff) drawing: a stale cell can depend on an arbitrarily long history.", "anchors": ["src/unix/screen.rs: ScreenWriteGuard::{refresh,move_cursor,apply_attrs}", "src/buffer.rs: ScreenBuffer::next_cell", "src/unix/terminal.rs: TerminalWriteGuard::{set_attrs,move_cursor,write_str}"]}
{"id": "C19", "title": "Refresh without changes sends nothing", "statement": "A refresh immediately after a successful refresh writes no bytes at all to the terminal, and a refresh draws only cells that changed since the last one.", "quantifier": "every state reached by any history", "why_tests_cant": "Needs the back buffer to be in sync for all contents.", "anchors": ["src/buffer.rs: ScreenBuffer::next_cell", "src/unix/screen.rs: ScreenWriteGuard::refresh", "src/windows/screen.rs: ScreenWriteGuard::refresh"]}
{"id": "C20", "title": "A failed refresh is repaired by the next one", "statement": "If refresh returns an error part-way, a later successful refresh still leaves the terminal showing the buffer.", "quantifier": "every failure point in every refresh", "why_tests_cant": "The failure point is arbitrary; tests do not inject I/O errors at each byte.", "anchors": ["src/unix/screen.rs: ScreenWriteGuard::refresh", "src/buffer.rs: ScreenBuffer::next_cell", "src/unix/terminal.rs: TerminalWriteGuard::{write_bytes,flush}"]}
{"id": "C21", "title": "Terminal attributes follow the calls", "statement": "On a terminal supporting all attributes, after any history of set_fg, set_bg, add_style, remove_style, set_style, set_theme, clear_attributes and write_styled calls, the attributes in effect on the device are exactly those the calls ask for.", "quantifier": "every history of attribute calls", "why_tests_cant": "The code resets and reapplies attributes along several branches; agreement over all histories needs an invariant.", "anchors": ["src/unix/terminal.rs: TerminalWriteGuard::{set_fg,set_bg,add_style,remove_style,set_style,set_attrs,set_theme,clear_attributes,clear_fg,clear_bg}"]}
{"id": "C22", "title": "Redundant attribute calls send nothing and attribute calls terminate", "statement": "Setting attributes to the values already in effect emits no bytes; the mutually recursive attribute routines always terminate.", "quantifier": "every attribute state and request", "why_tests_cant": "Mutual recursion set_fg/clear_fg/set_bg/set_style; termination is for all states.", "anchors": ["src/unix/terminal.rs: TerminalWriteGuard::{set_fg,clear_fg,set_bg,clear_bg,set_style,remove_style}"]}
{"id": "C23", "title": "Output bytes reach the device once and in order", "statement": "For any history of writes and flushes, the bytes received by the device followed by the bytes still pending equal the concatenation of everything written, whatever the sizes of the writes and however the operating system splits or interrupts them.", "quantifier": "every sequence of writes and every sequence of write(2) results", "why_tests_cant": "Short writes, EINTR and buffer-boundary sizes are combinatorial and environment-driven.", "anchors": ["src/unix/terminal.rs: TerminalWriteGuard::{write_bytes,flush,write_data,expand}"]}
{"id": "C24", "title": "Flush empties the buffer; dropping a write guard flushes", "statement": "A successful flush leaves no pending output, and so does dropping a TerminalWriteGuard when the device accepts data; text written in one guard session appears contiguously on the device even when other threads write.", "quantifier": "every interleaving of guard sessions of any number of threads", "why_tests_cant": "Thread schedules are unbounded.", "anchors": ["src/unix/terminal.rs: TerminalWriteGuard::flush, Drop for TerminalWriteGuard, Terminal::lock_write"]}
{"id": "C25", "title": "Input bytes are consumed exactly once and in order", "statement": "For any interleaving of read_event and read_raw calls, the bytes consumed by returned events and raw reads followed by the bytes still buffered equal the bytes received from the device.", "quantifier": "every history of read calls and every chunking of device input", "why_tests_cant": "Buffering, partial draining and signal interruptions combine over unbounded histories.", "anchors": ["src/unix/terminal.rs: TerminalReadGuard::{read_event,read_raw,read_into_buffer,try_read}, peek_event"]}
{"id": "C26", "title": "Key sequences: longest match wins", "statement": "When buffered input begins with one or more known key sequences, read_event reports the key of the longest one and consumes exactly its bytes; when it begins with none, it reports the first character and consumes exactly that character.", "quantifier": "every sequence table and every buffered input", "why_tests_cant": "All tables with prefix-overlapping sequences and all inputs.", "anchors": ["src/unix/terminal.rs: peek_event, sequences", "src/sequence.rs: SequenceMap::find", "src/util.rs: prefixes"]}
{"id": "C27", "title": "Typed text is decoded character by character", "statement": "If no key sequence starts inside it, reading the UTF-8 encoding of any text yields exactly Key::from(c) for its characters in order and leaves nothing buffered.", "quantifier": "every string, every position", "why_tests_cant": "UTF-8 decoding for all scalar values and lengths.", "anchors": ["src/unix/terminal.rs: peek_event, utf8_prefix, TerminalReadGuard::read_event"]}
{"id": "C28", "title": "Xterm mouse reports decode to the reported event", "statement": "For every button code, position (1-based) and press/release, the SGR report is decoded to the event with that 0-based position, button and modifiers and is consumed entirely; no byte sequence from the terminal makes the decoder panic.", "quantifier": "all 32-bit codes and coordinates, all byte strings", "why_tests_cant": "Unbounded numerals, overflow handling and coordinate 0.", "anchors": ["src/unix/terminal.rs: parse_mouse_data, parse_integer, mouse_button_event"]}
{"id": "C29", "title": "Decoded events do not depend on how input is chunked", "statement": "The sequence of events decoded from a byte stream is the same no matter how the operating system splits it into reads.", "quantifier": "every byte stream and every chunking", "why_tests_cant": "Chunkings are exponential in number and timing-dependent.", "anchors": ["src/unix/terminal.rs: peek_event, TerminalReadGuard::read_event"]}
{"id": "C30", "title": "UTF-8 handling of input", "statement": "An incomplete character at the end of input is kept until completed and never misreported; ill-formed input yields an error, and reading can continue after it.", "quantifier": "every byte string", "why_tests_cant": "All ill-formed and truncated byte strings.", "anchors": ["src/unix/terminal.rs: utf8_prefix, peek_event, try_read"]}
{"id": "C31", "title": "Signals are reported at most once and never invented", "statement": "Every signal event returned was delivered to the process beforehand, each delivery is reported at most once, the most recent pending signal is reported by the next read that has to wait, and no delivered signal is lost.", "quantifier": "every interleaving of signal deliveries with reads", "why_tests_cant": "Asynchronous signal arrival at any point.", "anchors": ["src/unix/terminal.rs: LAST_SIGNAL, handle_signal, take_signal, get_signal, read_input"]}
{"id": "C32", "title": "A pending signal wakes a waiting reader", "statement": "wait_event returns true promptly if a handled signal is delivered before or during the wait.", "quantifier": "every arrival time of a signal relative to the steps of wait_event", "why_tests_cant": "Race between the check and select(2).", "anchors": ["src/unix/terminal.rs: TerminalReadGuard::wait_event"]}
{"id": "C33", "title": "Signal events respect the configuration", "statement": "Resize always produces Event::Resize with the terminal's current size; Continue re-applies the prepared configuration; any other signal yields Event::Signal iff it is in the configured report set.", "quantifier": "every signal, configuration and terminal state", "why_tests_cant": "Needs to hold in all prepare/restore histories.", "anchors": ["src/unix/terminal.rs: TerminalReadGuard::{handle_signal,resume}"]}
{"id": "C34", "title": "restore undoes prepare, nested in LIFO order", "statement": "For properly nested prepare/restore calls with any configurations, after each restore the terminal modes, signal handlers, keypad and mouse modes and signal-reporting settings are those in force before the matching prepare, even if SIGCONT resumptions happened in between.", "quantifier": "every well-nested sequence of prepare, restore and resume", "why_tests_cant": "Arbitrary nesting depth and configuration combinations.", "anchors": ["src/unix/terminal.rs: TerminalReadGuard::{prepare_with_lock,restore_with_lock,resume}"]}
{"id": "C35", "title": "prepare establishes the requested mode", "statement": "After a successful prepare: canonical mode, echo and CR/LF translation are off; ISIG is off iff block_signals; IXON is on iff enable_control_flow; reads are non-blocking (VMIN=VTIME=0); all other flags are unchanged; handlers are installed exactly for SIGCONT, SIGWINCH and the reported signals.", "quantifier": "every prior terminal state and configuration", "why_tests_cant": "All flag combinations.", "anchors": ["src/unix/terminal.rs: TerminalReadGuard::prepare_with_lock"]}
{"id": "C36", "title": "A failed prepare leaves the terminal as it was", "statement": "If prepare returns an error the terminal modes and signal handlers are those in force before the call.", "quantifier": "every failure point of prepare", "why_tests_cant": "Failure injection at every system call.", "anchors": ["src/unix/terminal.rs: TerminalReadGuard::prepare_with_lock"]}
{"id": "C37", "title": "A Screen session restores the terminal", "statement": "Whether Screen::new succeeds or fails and whatever is done with the screen, once it is dropped the terminal modes and signal handlers are those before Screen::new and the alternate screen is left.", "quantifier": "every session history and failure point of Screen::new", "why_tests_cant": "Failure points and histories are unbounded.", "anchors": ["src/unix/screen.rs: Screen::new, Drop for Screen", "src/unix/terminal.rs: enter_screen, exit_screen, Drop for Terminal"]}
{"id": "C38", "title": "No deadlock if the read lock is taken first", "statement": "If every thread that holds both locks acquires the read lock before the write lock, no set of threads using Terminal and Screen methods can deadlock on the internal locks.", "quantifier": "any number of threads, any programs obeying the rule, every schedule", "why_tests_cant": "Unbounded threads and schedules.", "anchors": ["src/unix/terminal.rs: lock_read, lock_write, prepare, handle_signal", "src/unix/screen.rs: lock_write, lock_write_data, read_event"]}
{"id": "C39", "title": "Lock results compose correctly", "statement": "lock_write on a Screen is poisoned iff one of its two locks is; try_lock_write fails with WouldBlock iff either lock is unavailable, and then keeps no lock.", "quantifier": "all combinations of lock states", "why_tests_cant": "Combination of independent lock states under contention.", "anchors": ["src/priv_util.rs: map2_lock_result, map2_try_lock_result", "src/unix/screen.rs: Screen::{lock_write,try_lock_write}"]}
{"id": "C40", "title": "Timeouts are honoured", "statement": "Any finite timeout is converted to a wait of that length rounded down to milliseconds, saturating for huge values; the conversion never overflows or panics and a finite timeout never becomes infinite.", "quantifier": "every Duration", "why_tests_cant": "2^64 seconds times 10^9 nanoseconds.", "anchors": ["src/unix/terminal.rs: to_timeval", "src/windows/terminal.rs: as_millis"]}
{"id": "C41", "title": "Relative cursor movement", "statement": "move_up/down/left/right(n) sends a command that moves the cursor by exactly n (nothing for n = 0), for every n up to 2^32-1, or returns a not-supported error.", "quantifier": "every n and every capability set", "why_tests_cant": "Distinct capability for n = 1; all n.", "anchors": ["src/unix/terminal.rs: TerminalWriteGuard::{move_up,move_down,move_left,move_right,move_cursor}, to_u32"]}
{"id": "C42", "title": "term_write! runs its elements in order", "statement": "On a Terminal the elements are applied left to right and stop at the first error, which is returned; on a Screen all elements are always applied in order; term_writeln! appends a newline write.", "quantifier": "every list of elements and every failure pattern", "why_tests_cant": "Macro recursion over unbounded element lists.", "anchors": ["src/macros.rs: term_write!, term_writeln!, Chain"]}
{"id": "C43", "title": "Windows text attribute word", "statement": "The console attribute word sets exactly the requested colour bits on top of the defaults, BOLD maps to intensity, REVERSE swaps the three colour bits of foreground and background and nothing else; swapping twice is the identity.", "quantifier": "every default attribute word, colour and style", "why_tests_cant": "2^16 words times all attribute combinations.", "anchors": ["src/windows/terminal.rs: update_attrs, swap_colors, fg_code, bg_code, style_code"]}
{"id": "C44", "title": "Windows mouse records decode correctly", "statement": "For any previous and current button state the reported change is a real change of the lowest changed button; motion is reported only when tracking is on or a button is held; every change of buttons is eventually reported.", "quantifier": "every pair of 32-bit button states and every record history", "why_tests_cant": "2^64 state pairs.", "anchors": ["src/windows/terminal.rs: mouse_event, button_changed, bit_to_button"]}
{"id": "C45", "title": "Windows cursor arithmetic", "statement": "Relative moves saturate and end inside the buffer; conversions to console coordinates saturate and never wrap.", "quantifier": "every usize distance and every cursor/buffer size", "why_tests_cant": "All 64-bit values.", "anchors": ["src/windows/terminal.rs: move_rel, to_short, to_short_neg, to_dword, clear_to_line_end, clear_to_screen_end"]}
{"id": "C46", "title": "Windows console modes are restored", "statement": "restore after prepare returns the input mode to its value before prepare (with the extended-flags bit set), for nested uses in LIFO order, and prepare sets exactly the documented bits.", "quantifier": "every mode word and configuration", "why_tests_cant": "All 2^32 modes and nestings.", "anchors": ["src/windows/terminal.rs: prepare_with_lock, restore_with_lock"]}
{"id": "C47", "title": "Windows refresh shows the buffer", "statement": "On Windows, after any sequence of drawing calls, refreshes, resizes and reads ending with a refresh that returns Ok, every cell of the visible console buffer holds the text of the screen's cell and looks as its attributes ask for, the console cursor is at the screen's cursor, and the default attributes are in effect for further text.", "quantifier": "every session: all texts, styles, positions, sizes, orders of calls and console answers", "why_tests_cant": "Diff drawing with cached attributes over all contents.", "anchors": ["src/windows/screen.rs: ScreenWriteGuard::{refresh,apply_attrs,move_cursor}"]}
{"id": "C48", "title": "Screen resize events update the buffer", "statement": "When read_event or read_raw on a Screen returns Event::Resize(size) the screen's size is size, its content, cursor and attributes are kept as by resize, and the next refresh clears and repaints; on Windows read_raw_event applies the last size record in the batch.", "quantifier": "every event and batch of records", "why_tests_cant": "All batches and orders of records.", "anchors": ["src/unix/screen.rs: ScreenReadGuard::{read_event,read_raw}", "src/windows/screen.rs: ScreenReadGuard::read_raw_event, Writer::update_size"]}
{"id": "C49", "title": "Windows key records decode correctly", "statement": "A named key is reported by its name when it goes down and nothing when it goes up; a typed character is reported exactly once as Key::from of it, so typing a text reports that text; with Ctrl it is reported exactly once as Ctrl of it; size records are reported with their own lines and columns.", "quantifier": "every key record, modifier state and text", "why_tests_cant": "All of Unicode times all modifier states and virtual key codes.", "anchors": ["src/windows/terminal.rs: key_press_event"]}
{"id": "C50", "title": "Text reaches a Windows console exactly once", "statement": "When write_str, write_char or write_styled succeeds on Windows, the console has accepted exactly the given text, in order and once, also when it accepts it piece by piece and splits surrogate pairs; the screen then shows what the whole text shows. When the call fails, a beginning of the text was accepted and nothing is sent after the refusal. It returns whenever each call makes progress.", "quantifier": "every text, every division into accepted pieces, every interleaving with other events, every failure", "why_tests_cant": "Unbounded text and all divisions into pieces.", "anchors": ["src/windows/terminal.rs: TerminalWriteGuard::{write_str,write_char,write_styled}"]}
{"id": "C52", "title": "A Windows screen leaves the console as it was", "statement": "Opening a screen makes a new blank screen buffer of the terminal's size visible, prepared, without wrapping at the end of lines, and touches nothing else. When the screen is dropped without failures, after any drawing, the old buffer is visible again with its contents, the screen's buffer is gone, input mode and control handlers are as before. If restoring the input mode fails, or opening fails in its last step, the screen's buffer stays visible (this is a defect, proved as such).", "quantifier": "every console state, configuration, use of the screen's buffer and interleaved event", "why_tests_cant": "All console states and everything drawn in between.", "anchors": ["src/windows/screen.rs: Screen::{new, drop}", "src/windows/terminal.rs: enter_screen, exit_screen, setup_screen, Terminal::drop"]}
{"id": "C53", "title": "Windows attributes in effect", "statement": "After any sequence of successful set_fg/set_bg/set_style/add_style/remove_style/set_attributes/clear_attributes calls the characters written look exactly as those calls ask for, in order, and nothing else of the console has changed; redundant calls may be skipped but never a needed one. After a failed call the attributes in effect are those of the calls before it; a failed call is not made again when it is repeated (a defect, proved as such).", "quantifier": "every sequence of calls, default attributes, colours and styles, and interleaved events", "why_tests_cant": "Unbounded sequences over a cached state.", "anchors": ["src/windows/terminal.rs: TerminalWriteGuard::{set_fg,set_bg,set_style,add_style,remove_style,set_attributes,clear_attributes,update_attrs}"]}
{"id": "C51", "title": "Windows control signals are reported, superseded or kept", "statement": "Whatever calls are made, failing or not, and whenever Ctrl-C or Ctrl-Break arrive: a call reports a signal only if it is the newest one handled and was not reported before; every signal handled is reported, replaced by a newer one, or kept; one that is kept is reported by the next reading call at once, without waiting and without failing; exactly the signals asked for in prepare are handled; a wait that times out had no signal and no input. A call returns an error exactly when the console refused a call it made, whatever signals arrive. (Defect, proved as such: after a signal was reported, read_raw with a timeout may call ReadConsole with no key pressed, and block.)", "quantifier": "every sequence of calls, every answer of the console and every interleaving of control events and input", "why_tests_cant": "Needs all interleavings of the handler with the reader's two atomic accesses and its wait.", "anchors": ["src/windows/terminal.rs: ctrl_handler, catch_signals, get_signal, take_signal, TerminalReader::{wait_event,read_event,read_raw,read_raw_event,prepare,restore}"]}
{"id": "C54", "title": "Windows cursor and erase commands do what they say", "statement": "On success move_cursor, move_up/down/left/right, move_to_first_column and set_cursor_mode put the cursor where asked (within the buffer; right and down stop at the edge, left and up fail beyond it) and change nothing else; clear_to_line_end and clear_to_screen_end erase exactly the rest of the line or screen; clear_screen leaves a blank window with the cursor in its corner. A failed call changes nothing (an erasure: at most attributes of the cells to be erased). None panics. clear_screen is wrong when the window is smaller than the buffer and there is text below the cursor, or when the window is more than half of the buffer (defects, proved as such).", "quantifier": "every buffer content and size, window, cursor position, distance and interleaved event", "why_tests_cant": "All positions, sizes and window placements; frame conditions over all cells.", "anchors": ["src/windows/terminal.rs: TerminalWriter::{move_cursor,move_to_first_column,move_up,move_down,move_left,move_right,set_cursor_mode,clear_screen,clear_to_line_end,clear_to_screen_end,size}"]}
{"id": "C55", "title": "Drawing calls change only what they name", "statement": "set_cursor, next_line, the attribute calls, clear_screen and resize change exactly what they name, cell by cell, and leave all other cells, the cursor and the attributes as they are; write_at is set_cursor followed by write_str for a position in bounds and nothing otherwise; a styled write is setting attributes, writing and clearing them; a text written in two parts is the same as written at once.", "quantifier": "every buffer, call, position, text and size", "why_tests_cant": "Frame conditions over all states and all cells; equalities between all call sequences.", "anchors": ["src/buffer.rs: ScreenBuffer::{set_cursor,next_line,clear_screen,resize,write_at,write_styled_at,write_styled,write_str}"]}
{"id": "C56", "title": "Dropping a screen's write guard shows what was drawn", "statement": "Dropping a guard has the effect of a successful refresh, sending exactly what refresh sends and leaving nothing pending; if the refresh fails the drop reports no error and still delivers the output already produced. Screen::refresh (a guard taken, refreshed and dropped) is one refresh when that succeeds, and returns the first error otherwise. Drawing calls on the guard send nothing. On Windows a method of the guard returns an error exactly when the console refused a call it made, and then makes no more calls.", "quantifier": "every screen, drawing history, terminal description and sequence of system answers, on both platforms", "why_tests_cant": "The second refresh must be silent for every buffer content; error paths of every write.", "anchors": ["src/unix/screen.rs: Drop for ScreenWriteGuard, Screen::refresh", "src/windows/screen.rs: Drop for ScreenWriteGuard, Screen::refresh"]}
{"id": "C57", "title": "A Unix terminal shows what was written to it", "statement": "A program that writes to a terminal directly (set_fg/set_bg/styles/themes, write_str, write_char, write_styled, cursor moves, erasing, cursor mode, flush, any number of guards) and carries on after calls that fail: the terminal, given everything handed over for output, shows exactly the page the calls asked for. Every character is in its cell in the theme in force when it was written, erased cells are blank, the cursor is where it was moved, and is visible or not as asked. If the system takes writes as a whole and a final flush succeeds, the terminal has received exactly the bytes of that output. On a terminal with all capabilities, whose system takes all output, no call fails.", "quantifier": "every sequence of calls, text, screen size up to 2^32, terminal description with attributes and cursor visibility, and system answers including failures", "why_tests_cant": "Unbounded sequences mixing attributes, text, movement and erasing; the terminal's state depends on all of them.", "anchors": ["src/unix/terminal.rs: TerminalWriter::{clear_screen,clear_to_line_end,clear_to_screen_end,move_*,set_cursor_mode,write_str,write_styled,set_theme,flush}", "src/terminal.rs: TerminalWriteGuard"]}
{"id": "C58", "title": "A Windows console shows the same page a Unix terminal does", "statement": "A program that writes to a Windows console directly, as in C57, where every call succeeds or is a cursor call (move, column, position, cursor mode) that fails: if the whole buffer is visible and line ends are interpreted, the buffer then shows exactly the page the calls asked for, the same page as in C57: every character in its cell and looking as its theme asks for, erased cells blank in default colours, the cursor where it was moved, and visible or not as asked. No other buffer, mode or handler of the console changes. Hence the same calls with the same results on a Unix terminal and a Windows console leave the same characters, cursor position and visibility. A call returns an error exactly when the console refused a call it made, at once, so that any history of calls has as many errors as refusals. (What a failed attribute call leaves behind is C53, a failed write C50, a failed erasure C54.)", "quantifier": "every sequence of calls, text, default attributes, buffer size, and every behaviour of the console including key presses and control events meanwhile", "why_tests_cant": "Two platforms with different code for each call; agreement must hold after every sequence and every console behaviour.", "anchors": ["src/windows/terminal.rs: TerminalWriter::{clear_screen,clear_to_line_end,clear_to_screen_end,move_*,set_cursor_mode,write_str,write_styled,set_theme,clear_attributes}", "src/unix/terminal.rs: TerminalWriter", "src/terminal.rs: TerminalWriteGuard"]}
{"id": "C59", "title": "A Unix screen shows what was asked for, whatever the window and the signals do", "statement": "A Screen is opened on a terminal that has been used before and shows anything. The program then draws text without two-column characters, refreshes, holds and drops write guards, changes the cursor mode, waits for input and reads events or bytes, in any order, while signals arrive, the process is suspended and resumed, and the window changes its size at any time, during calls and between them; system calls other than writes may fail. Whenever a refresh or a guard ends and the last change of size has been reported by a Resize event, the terminal shows exactly what all drawing calls and reported sizes together ask for, the cursor is where it should be, attributes are reset and all output has been sent, however the terminal treated its contents when its size changed. The same holds for text with two-column characters, except for a cursor in the right half of one, as long as no character is written where it does not fit, no reported size cuts one in half and no cell is uncovered with the content last drawn there.", "quantifier": "every sequence of calls, timeouts, schedule of signals, size changes and system answers, earlier use of the terminal, and every terminal description with the required capabilities", "why_tests_cant": "Interleavings of size changes, signals and calls without bound; what the terminal shows after a size change is arbitrary.", "anchors": ["src/unix/screen.rs: Screen::{new,refresh,read_event,read_raw,wait_event,set_cursor_mode}, ScreenWriteGuard, update_size", "src/unix/terminal.rs: TerminalReader, handle_signal, TerminalWriter"]}
{"id": "C60", "title": "Several threads using one terminal amount to one thread making their sessions one after another", "statement": "Any number of threads use one Terminal or one Screen and its guards in any way, and may panic anywhere. What they do with the writer is the same as whole sessions one after another, in the order in which the threads took the write lock, each made by one thread and ended by the drop of its guard (also when the thread panics). So if the threads make output and cursor calls, one thread making all the calls session by session gets the terminal into the same state, and the terminal shows the page these sessions ask for.", "quantifier": "every number of threads, every interleaving, every sequence of calls, panic points, operating system answers, and every terminal description with the required capabilities", "why_tests_cant": "Interleavings of threads cannot be enumerated, and tests do not control the scheduler.", "anchors": ["src/unix/terminal.rs: Terminal::{lock_read,lock_write,try_lock_read,try_lock_write}, Drop for TerminalWriteGuard, TerminalWriter", "src/unix/screen.rs: Screen, Drop for ScreenWriteGuard", "src/priv_util.rs"]}
{"id": "C61", "title": "A screen learns of every change of the window's size", "statement": "A Screen is opened, and then its methods are called and the window changes its size in any order, also while calls run; each change comes with SIGWINCH. At every moment the screen has the window's size or a change is about to be reported: then wait_event answers true at once, and the next read (read_event when no complete event is buffered, read_raw when nothing is) reports the window's size and gives it to the screen. No other method changes the screen's size.", "quantifier": "every sequence of calls, timeouts, times of size changes, signals, input and system answers", "why_tests_cant": "Size changes can come at any moment of any call; a race between the check and the call is not reproducible in a test.", "anchors": ["src/unix/screen.rs: Screen::{new,read_event,read_raw,wait_event}, update_size", "src/unix/terminal.rs: TerminalReader::{read_event,read_raw}, get_signal, handle_signal, prepare"]}
{"id": "C62", "title": "A screen holds exactly the picture its drawing calls describe", "statement": "After any history of drawing calls, with any texts (characters of one and two columns, combining marks, tabs, carriage returns, line ends, characters without width, texts that run off the screen), the screen holds exactly what the calls describe position by position: each character in the cell at the cursor with the attributes in force, spaces in its other columns, a character whose other half was covered blanked, a combining mark joined to the character before it, a tab as spaces to the next multiple of eight, a two-column character that does not fit moved to the next line; the cursor and the attributes after each call; and success or failure. A call panics only if the cursor's line would exceed usize. After a refresh this is what the terminal shows.", "quantifier": "every history of drawing calls, text, position, size, attributes and Unicode table", "why_tests_cant": "Unbounded texts and histories; frame conditions over all cells.", "anchors": ["src/buffer.rs: ScreenBuffer::{write_char,write_str,write_at,write_styled,write_styled_at,set_cell,try_cursor}", "src/terminal.rs: Cursor::previous"]}
{"id": "C63", "title": "The public writing methods do what they are documented to do, and have done it when they return", "statement": "A program calls the writing methods of Terminal, and of write guards it takes and drops, in any order, and carries on after calls that fail. On a Unix terminal and on a Windows console what is shown in the end is exactly the page the documentation of the methods describes: bold/italic/underline/reverse add that style, set_style(None) and a write_styled without style mean no style, write_char/write_str/write_fmt write text, write_styled writes it in its own attributes and leaves none, a move by zero moves nothing, and so on; and both platforms show the same. Whenever no guard is held, the terminal has received all of it, if the operating system takes output (interruptions allowed); if it does not, a method may report success although nothing arrived (proved as such). The methods of Screen and of its guard draw the same, namely what they ask for.", "quantifier": "every sequence of methods and guards, text, screen size, terminal description with the required capabilities, and system or console answers", "why_tests_cant": "Unbounded sequences over two platforms; delivery must hold after every call and interruption.", "anchors": ["src/terminal.rs: Terminal, TerminalWriteGuard", "src/screen.rs: Screen, ScreenWriteGuard", "src/unix/terminal.rs: Terminal::{clear_screen..write_str}, Drop for TerminalWriteGuard", "src/windows/terminal.rs: Terminal::{clear_screen..write_str}"]}
{"id": "C64", "title": "A panic in a program that uses a screen still gives the terminal back", "statement": "A program opens a Screen and uses it in any way, from any number of threads, holding guards or not. A thread panics: in the program's own code, in a drawing call, or while an event is read. When the screen is dropped, by the unwinding owner or later by an owner that did not panic, terminal modes, signal handlers, the main screen and the cursor are restored, on Unix and on Windows.", "quantifier": "every history of calls, number of threads, interleaving, point of panic, set of guards held at that point, and system answers without failures during the drop", "why_tests_cant": "Panics at arbitrary points with arbitrary guards held; an aborted process cannot report the terminal's state to a test.", "anchors": ["src/unix/screen.rs: Drop for Screen, Drop for ScreenWriteGuard, lock_reader, lock_writer", "src/unix/terminal.rs: Terminal::{restore,exit_screen,set_cursor_mode,lock_reader,lock_writer}, Drop for Terminal, Drop for TerminalWriteGuard", "src/windows/screen.rs: Drop for Screen", "src/windows/terminal.rs: Drop for Terminal, restore, exit_screen"]}
{"id": "C65", "title": "A call leaves no lock behind but those of the guards it returns", "statement": "When a method of a Terminal, a Screen or one of their guards has returned, whether it succeeded or failed, the calling thread holds the locks of exactly the guards the program has: those it had before, without one that was dropped, with one that was asked for. A call that only tries to lock returns with all the locks of its guard or with none. A thread that panicked at any point ends up holding none.", "quantifier": "any number of threads, any programs, every schedule, every point of panic", "why_tests_cant": "Unbounded threads and schedules; a leaked lock shows only when another thread waits for it at the right moment.", "anchors": ["src/unix/terminal.rs: lock_read, lock_write, try_lock_write, read_event, prepare, handle_signal", "src/unix/screen.rs: lock_write, try_lock_write, lock_write_data, refresh, read_event"]}
{"id": "C66", "title": "File descriptors of terminals are closed once, and no others are", "statement": "A program opens terminals by path, makes terminals of the standard streams, makes screens of them (which may succeed, fail or panic), uses and drops them in any order, and opens and closes files of its own in between; the system may give a closed descriptor's number to the next file. Every method of a terminal works on the file the terminal was opened for. Dropping a terminal, or failing to make one or a screen of one, closes the descriptor the library opened and no other; the standard streams and the program's files stay open. When all terminals are dropped no descriptor is left open by the library.", "quantifier": "all programs, all choices of descriptors by the system, all failures", "why_tests_cant": "Descriptor numbers are reused: a second close hits another file only if one is opened in between; a leak is silent.", "anchors": ["src/unix/terminal.rs: Terminal::{new,open,stdout,stderr}, Drop for Terminal, open_rw, close_fd", "src/unix/screen.rs: Screen::new"]}
{"id": "C67", "title": "Programs that cannot deadlock on one platform cannot deadlock on the other", "statement": "Threads use one Terminal or Screen and its guards. If no call of theirs waits for a lock its own thread holds, and the read lock is taken before the write lock, by the locks the calls take on one platform, then the same calls do not deadlock on the other platform.", "quantifier": "any number of threads, any programs, every schedule, every point of panic, both directions", "why_tests_cant": "Unbounded threads and schedules; a program tested on one platform only never takes the other platform's locks.", "anchors": ["src/windows/terminal.rs: prepare, restore, read_event, lock_read, lock_write", "src/windows/screen.rs: read_event, lock_write", "src/unix/terminal.rs: prepare, handle_signal, size", "src/unix/screen.rs: read_event"]}
{"id": "C68", "title": "An xterm shows the page the program asked for, from the bytes it receives", "statement": "The user's terminal is an xterm and TERM is xterm-256color. A program writes text, sets colours and styles, moves the cursor, erases and hides the cursor, with a Terminal, through guards, or from several threads. When everything has been flushed, the xterm, which reads bytes and knows nothing of the calls, shows the page asked for: characters in their themes, erased cells, the cursor and whether it is visible. No command is taken for text, and no text for a command.", "quantifier": "every sequence of calls, results, text, screen size up to 2^32 lines and columns, state of the xterm between two sequences, and interleaving of threads; every operating system that does not take only a part of what it is given", "why_tests_cant": "Unbounded sequences of calls and text; tests compare bytes, not what a terminal makes of them.", "anchors": ["src/unix/terminal.rs: Writer::{write_bytes,expand,flush}, TerminalWriteGuard methods, to_u32", "src/terminal.rs: TerminalWriteGuard"]}
{"id": "C69", "title": "A screen on an xterm shows what was asked for, from the bytes it receives", "statement": "The user's terminal is an xterm, TERM is xterm-256color, and it shows anything. A program opens a Screen, draws, refreshes, uses guards, waits and reads events, while signals arrive and the user changes the size of the window at any time, even between two bytes of a sequence. When a refresh or a guard ends and the last change of size has been reported as an event, the xterm, which reads bytes and knows nothing of the calls, shows on its alternate buffer every cell that was asked for, with its cursor where the program put it, its attributes reset and no line wrap pending. With two-column characters the same holds under the conditions of C59.", "quantifier": "every earlier use of the terminal, state of the xterm between two sequences, sequence of calls and any results, signal schedule and change of size at any byte, when the operating system takes what it is given", "why_tests_cant": "Unbounded histories, and changes of size that race with output at every byte.", "anchors": ["src/unix/screen.rs: Screen", "src/screen.rs: Screen, ScreenWriteGuard", "src/unix/terminal.rs: Writer, Terminal::{enter_screen,prepare,read_event}"]}
{"id": "C70", "title": "An xterm is as it was before a screen was opened", "statement": "A program opens a Screen on an xterm, uses it in any way, and drops it; from the drop on, no system call fails. Afterwards the xterm is on its normal buffer, with the attributes it had, and shows its cursor; if keypad, mouse buttons and motion were not reported before, they are not reported now. If the window has kept its size, every cell of the normal buffer, the position of the cursor and the pending line wrap are as before the screen was opened.", "quantifier": "every earlier use of the terminal, state of the xterm, configuration, sequence of calls and results, signals and changes of size at any byte", "why_tests_cant": "Unbounded sessions; tests cannot see what the terminal restores, and signals can re-enable modes at any time.", "anchors": ["src/unix/screen.rs: Screen::new, Drop for Screen", "src/unix/terminal.rs: enter_screen, exit_screen, prepare, restore, Drop for Terminal"]}
{"id": "C71", "title": "What a call does to the locks and the terminal, whatever other threads do", "statement": "Any number of threads call methods of one Terminal or one Screen, on Unix or on Windows. When a call returns, the thread has, in order, taken the locks that call is documented to take, done to the terminal what was asked, flushed the output if a write lock ends with the call (Unix), and given back just those locks whose guard the call does not return; try_lock_ calls take all their locks or give back those they got; calls that read take further locks only for a resize or after the process was continued. A call that finds a lock poisoned and would not return its guard does nothing more to the terminal and panics; lock_ and try_lock_ calls do not panic. A thread that panics gives back all it holds, and does nothing else.", "quantifier": "every number of threads, sequence of calls, interleaving, panic and state the locks are in", "why_tests_cant": "Interleavings and panics at arbitrary points cannot be enumerated by tests.", "anchors": ["src/unix/terminal.rs: Terminal, TerminalReadGuard, TerminalWriteGuard", "src/unix/screen.rs: Screen, ScreenReadGuard, ScreenWriteGuard", "src/windows/terminal.rs, src/windows/screen.rs: same", "src/priv_util.rs"]}
{"id": "C72", "title": "What the user does at an xterm is what the program is told", "statement": "The user's terminal is an xterm, TERM is xterm-256color, and its modes were off. A program opens a Screen with enable_keypad, possibly with the mouse and always_track_motion, and uses it in any way except reading raw bytes. All the while the xterm's modes are those the configuration asks for. The user presses keys (characters, letters with Ctrl, Escape, Enter, Tab, Backspace, cursor and editing keys, F1 to F12) and uses the mouse, with modifiers. read_event returns exactly what the user did, in order, so far as the program asked for it, with the mouse's position counted from zero; nothing is lost or invented. Two conditions cannot be dropped: that no read ends inside what the xterm sends for one key or report, and that Escape is not followed directly by a typed [ or O.", "quantifier": "every earlier use of the terminal, configuration with keypad, sequence of user actions, sequence of calls and results, signal schedule, splitting of the input into reads between actions or inside characters, changes of size at any time", "why_tests_cant": "Unbounded sequences of user actions, calls, signals and splittings; no test harness has an xterm that obeys the modes the program sets.", "anchors": ["src/unix/terminal.rs: prepare, resume, enable_mouse, sequences, read_event, peek_event, parse_mouse_data", "src/unix/screen.rs: Screen::{new,read_event}", "src/terminal.rs: impl From<char> for Key"]}
{"id": "C73", "title": "What the user does at a Windows console is what the program is told", "statement": "Records in a Windows console's input queue are taken once, in order, and none is lost: whatever calls a program makes on a terminal, the records its calls took, as their results show, followed by those still queued, are those that were queued or have arrived. A program that prepares a terminal, or opens a Screen, and then uses it in any way except reading raw input or preparing anew, is told by read_event exactly what the user did, in order, so far as the configuration asks for it: keys (characters of the basic plane, letters with Ctrl, named keys, F1 to F12; Ctrl-C unless it is left to the system), the mouse, one button at a time, with position and modifiers, and new sizes of the window, the last of which is the Screen's size. A read that returns None found the queue empty. What the terminal must know at the start is which buttons are held: prepare does not forget buttons, so a button released while the mouse was not reported makes the next press appear as motion.", "quantifier": "every configuration, sequence of calls and results, sequence of user actions and of records the console may queue for them (key-ups, modifiers alone, focus and menu records between them), times of arrival, control events, failing calls", "why_tests_cant": "Unbounded sequences of user actions, records and calls; tests have no console whose queue they can fill.", "anchors": ["src/windows/terminal.rs: prepare_with_lock, read_event, read_raw_event, wait_event, mouse_event, key_press_event, size_event", "src/windows/screen.rs: Screen::{new,read_event}, update_size"]}
{"id": "C74", "title": "A SequenceMap whose keys the program rewrites stays a map", "statement": "A program may rewrite the slice that sequences_mut returns, keys included, if it leaves the slice sorted by key. From then on insert, remove, get, find and the entry calls behave as those of the map of the pairs that were written: each call returns what that map would return, nothing panics, find classifies every query as documented, and the slice stays sorted.", "quantifier": "every map, every list of pairs of the same length with sorted keys, every later history of calls and query, and every way in which a binary search may choose among equal keys", "why_tests_cant": "Unbounded slices, keys and histories, and a choice that the standard library leaves open and that differs between its versions.", "anchors": ["src/sequence.rs: SequenceMap::{sequences_mut,search,find,get,insert,remove,entry}"]}
{"id": "C75", "title": "What the program is told of keys with modifiers at an xterm", "statement": "As C72, but the user also holds Shift, Alt or Ctrl down while pressing cursor keys, editing keys or function keys, Shift with Tab, or Alt with a character. The API has no events for such keys. The program is told each of them as Escape followed by the characters of what the xterm sends, one by one (Ctrl-Up as Escape [ 1 ; 5 A); everything else is told as in C72; nothing is lost and nothing else is told. The reads may end anywhere inside what is sent for such a key. No two of them are told in the same way.", "quantifier": "every earlier use of the terminal, configuration with keypad, sequence of user actions with modifiers, sequence of calls and results, signal schedule, splitting of the input into reads, changes of size at any time", "why_tests_cant": "Unbounded sequences of user actions, calls, signals and splittings; an incomplete match with the table of sequences has to be undone at every possible place.", "anchors": ["src/unix/terminal.rs: sequences, read_event, peek_event", "src/sequence.rs: SequenceMap::find", "src/unix/screen.rs: Screen::read_event"]}
{"id": "C76", "title": "On Windows handles are used only while they are open, and what was made is closed", "statement": "In the whole life of a Terminal on Windows, from Terminal::new through any calls to its end, or to the end of the Screen made of it (whether Screen::new succeeds or fails at any step): the console is only ever given handles that are open at that moment, either lent by GetStdHandle or made by CreateConsoleScreenBuffer and not closed yet; only handles that were made are closed, and none twice; at most one is open at a time; and in the end all that were made are closed.", "quantifier": "every sequence of calls on the terminal and the screen, configuration, answer of the console to every call, control events and input at any time", "why_tests_cant": "Every call can fail, at each of the unboundedly many places in a history; tests cannot make CloseHandle or SetConsoleMode fail.", "anchors": ["src/windows/terminal.rs: Terminal::new, Drop for Terminal, enter_screen, exit_screen, setup_screen, close_handle, result_handle", "src/windows/screen.rs: Screen::new, Drop for Screen"]}
{"id": "C77", "title": "A Windows screen recovers from everything the console did behind its back", "statement": "The visible console buffer may become any other buffer at any time, between two calls of a screen or in the middle of a refresh: another size, other contents, any number of times, with the size records read late, old ones first, or after refreshes that drew for the wrong size or failed. Whatever such refreshes did to the console, once the last size record read tells the size that the console has, a refresh that returns Ok leaves the console showing exactly the result of the drawing calls and size records of the session, the cursor in its place and the default attributes in effect. Without such a record the console may go on showing something else.", "quantifier": "every console, window, session of drawing calls, refreshes that succeed or fail, changes of the console between and during refreshes, size records in any order and other events, answers of the console (what a call does to a console of another size than the screen believes is left open where the documentation leaves it open); not: a window that shows only some lines of the buffer", "why_tests_cant": "The user can resize the window, and other programs can write, at any moment; the effects of drawing for the wrong size are not even determined, so no set of runs covers them.", "anchors": ["src/windows/screen.rs: refresh, update_size, read_event", "src/windows/terminal.rs: clear_screen, move_cursor, write_str, set_attributes", "src/buffer.rs: resize, next_cell"]}
{"id": "C78", "title": "A theme holds what was asked for last, and setting it is making those requests", "statement": "A theme made by Theme::default or Theme::new and any chain of the builder methods fg, bg and style holds the last foreground, background and style asked for, None meaning none. Setting such a theme has the same effect as clearing the attributes and making the same requests one by one: on a screen exactly the same state, on a Unix terminal that supports all attributes and on a Windows console the same look of the characters written; text written to a screen with it has the theme's colours and style.", "quantifier": "every start, chain of builder calls of any length and order, buffer, text, history of earlier calls, console and answers of the console", "why_tests_cant": "Chains have any length and order; tests build a few themes and never look at the terminal.", "anchors": ["src/terminal.rs: Theme::new, Theme::fg, Theme::bg, Theme::style, Theme::default", "src/buffer.rs: set_attributes", "src/unix/terminal.rs: set_attributes", "src/windows/terminal.rs: set_attributes"]}
{"id": "C79", "title": "Several terminals of one program keep out of each other's way", "statement": "When a program uses several terminals (stdout and stderr, which share the input, or opened devices): each signal is reported at most once and by one of them only, in the order of arrival, and none is invented; each byte typed at a device goes to exactly one call on one of the terminals on it, and what a terminal makes of its bytes uses each once and in order; after any use in which every prepared terminal is restored, the modes of all devices and the handlers of all signals are as before; and while a terminal is prepared, it is told of a change of size whatever is done with the others; beyond that, calls on some terminals change nothing of the others, and give the same whatever the state of those.", "quantifier": "any number of terminals and devices, every sequence of calls on them, every arrival of signals, all answers of the system", "why_tests_cant": "The handlers and the last signal are shared by the whole process and the modes and input by all terminals on a device; tests use one terminal.", "anchors": ["src/unix/terminal.rs: LAST_SIGNAL, handle_signal, take_signal", "src/unix/terminal.rs: prepare_with_lock, restore_with_lock", "src/unix/terminal.rs: Terminal::stdout, Terminal::stderr, Terminal::open"]}
{"id": "C80", "title": "Several terminals of one Windows program keep out of each other's way", "statement": "When a program on Windows uses several terminals (stdout and stderr share the console's input): each console signal that is handled is reported at most once and by one of them only, in the order of arrival, and none is invented; it is reported by a terminal that has asked for it; a signal is handled as long as some prepared terminal has asked for it; after any use in which every prepared terminal is restored, in whatever order, the input mode and the registrations of the control handler are as before; beyond that, calls on some terminals change nothing of the others, and give the same whatever the state of those; a press and a release of a button are both told.", "quantifier": "any number of terminals, every sequence of calls on them, every arrival of control events, all answers of the console", "why_tests_cant": "CATCH_SIGNALS and LAST_SIGNAL are statics, and the console has one input mode and one list of handlers; tests use one terminal.", "anchors": ["src/windows/terminal.rs: CATCH_SIGNALS, LAST_SIGNAL, ctrl_handler, catch_signals", "src/windows/terminal.rs: prepare_with_lock, restore_with_lock", "src/windows/terminal.rs: Terminal::stdout, Terminal::stderr"]}
{"id": "C81", "title": "The same program draws the same picture on Unix and on Windows", "statement": "A program uses a screen, once on a Unix terminal and once on a Windows console of the same size, and makes the same drawing calls and reads the same sizes in the same order; refreshes, failures, waiting and changes of the window may come at different times. Once both screens know the size of their window and have been refreshed successfully, the console shows the same characters in the same places as the terminal, with the same colours, bold as bright, and reversed where the terminal has them reversed, default colours being those of the console; the cursor is in the same place, except possibly when it is wanted in the right half of a two-column character. This holds for all programs that draw one-column characters, and for those that draw two-column characters where they fit; where the screen leaves a cell torn on one system (C18), it is torn on the other as well, as long as no two-column character is drawn into such a cell.", "quantifier": "every program, table of Unicode widths, terminal database, earlier use of the terminal, schedule of signals and of changes of the window, every console, its answers and its changes", "why_tests_cant": "The two implementations of the screen cannot be run on one system; the tests look at the buffer only.", "anchors": ["src/unix/screen.rs: ScreenWriteGuard::refresh", "src/windows/screen.rs: ScreenWriteGuard::refresh", "src/screen.rs: Screen", "src/buffer.rs: ScreenBuffer::indices, next_cell"]}
{"id": "C82", "title": "The same user is told of in the same way on Unix and on Windows", "statement": "A program runs with the same configuration at an xterm and at a Windows console, and the user does the same things with keyboard and mouse, pressing keys without modifiers other than Ctrl with a letter; sizes may change, signals arrive and calls be made as they like. Then the key and mouse events the program is told on one system are those it is told on the other, in the same order, up to those it has not read yet; once all input has been read on both, they are the same. This holds for screens and for terminals. When modifiers are held with another key it never holds: the console tells such a key without its modifiers, or not at all if it is a character with Alt, and the xterm as Escape and characters.", "quantifier": "every program on both systems, every sequence of acts of the user that both can report, every configuration with the keypad on (and with signals blocked, or a user who never presses Ctrl-C), every schedule of signals and changes of size, every chunking of the input that does not break a sequence", "why_tests_cant": "The two systems cannot be tested together; key decoding is tested for some sequences and not at all for Windows.", "anchors": ["src/unix/terminal.rs: read_event, try_read, peek_event", "src/windows/terminal.rs: read_event, key_press_event, mouse_event", "src/sequence.rs", "src/terminal.rs: Key, MouseEvent"]}
{"id": "C83", "title": "What the user does is what the user sees", "statement": "A program opens a screen and from then on reads events and draws, and what it draws is determined by the events it has been told. The user types, uses the mouse and changes the window meanwhile, and signals arrive. Whenever a refresh succeeds, or a guard that drew is dropped, and the last change of size has been told, the terminal shows what the program draws for the things the user did that have been read, in their order: on an xterm from the bytes of the keyboard and the mouse to the bytes of the output, on a Windows console from its input records to its screen buffer. Nothing the user did is lost, doubled or reordered; the rest is still unread. If the windows keep the same size, signals are not drawn, and everything the user did has been read and drawn on both systems, both show the same picture, with the cursor in the same place.", "quantifier": "every program of this kind (any function from events to drawing calls without two-column characters), any sequence of acts of the user, any calls but read_raw in any order, any timing of signals and of chunks of the input that does not break a sequence, any valid answers of the console", "why_tests_cant": "Tests use neither a keyboard nor a screen; the parts of this (decoding, buffer, refresh, device) are in four files for each of two systems.", "anchors": ["src/unix/terminal.rs: read_event, parse_event, write, flush", "src/unix/screen.rs: Screen::new, read_event, refresh", "src/windows/screen.rs: read_event, refresh", "src/windows/terminal.rs: read_event", "src/buffer.rs"]}
