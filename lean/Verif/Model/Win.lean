import Verif.Model.WinPure
import Verif.Model.Timeout
import Verif.Model.Writer
import Verif.Model.Unix

/-!
# `src/windows/terminal.rs`

The code is modelled as a program that calls the console. Every call takes the next step of a
schedule `os`, which gives its answer and what happens just before it: console control events, for
which the system runs `ctrl_handler` in another thread, and input. Accesses to `CATCH_SIGNALS` and
`LAST_SIGNAL` take a step too, so that control events may come between any two of them. Calls,
answers and events are recorded in `log`. What a console may answer, and what its calls do, is not
part of the model: see `Spec/Console.lean`. An answer of the wrong kind means that there is no such
execution (`stop .blocked`, like an exhausted schedule).

The locks are not part of this file (see `Model/WinLocks.lean`).
-/

namespace Mortal

/-! ## Code with state and errors -/

/-- Result of a call that returns a value. (For `src/windows/terminal.rs:123-1337`.) -/
inductive SRes (σ α : Type)
  | ok (a : α) (s : σ)
  | err (e : IoErr) (s : σ)
  | stop (w : Stop)
deriving DecidableEq

/-- Code that uses a state. (For `src/windows/terminal.rs:123-1337`.) -/
def SM (σ α : Type) := σ → SRes σ α

/-- The `?` of `src/windows/terminal.rs:123-1337`. -/
instance (σ : Type) : Monad (SM σ) where
  pure a := fun s => .ok a s
  bind m f := fun s =>
    match m s with
    | .ok a s' => f a s'
    | .err e s' => .err e s'
    | .stop w => .stop w

namespace SM

/-- Return an error. (`Err(e)`, e.g. `src/windows/terminal.rs:1251-1265`.) -/
def throw {σ α : Type} (e : IoErr) : SM σ α := fun s => .err e s
/-- Do not return. (For e.g. `src/windows/terminal.rs:314-320`.) -/
def halt {σ α : Type} (w : Stop) : SM σ α := fun _ => .stop w
/-- Read the state. (For `&self`, `src/windows/terminal.rs:106-116`.) -/
def get {σ : Type} : SM σ σ := fun s => .ok s s
/-- Change the state. (For `&mut self`, `src/windows/terminal.rs:106-116`.) -/
def modify {σ : Type} (f : σ → σ) : SM σ Unit := fun s => .ok () (f s)
/-- A computation that may panic. (For e.g. `src/windows/terminal.rs:642-643`, 708.) -/
def ofPanics {σ α : Type} (x : Panics α) : SM σ α :=
  match x with
  | some a => fun s => .ok a s
  | none => fun _ => .stop .panic
/-- `if c { m }` in the middle of a function. (For e.g. `src/windows/terminal.rs:397-401`.) -/
def when {σ : Type} (c : Prop) [Decidable c] (m : SM σ Unit) : SM σ Unit := if c then m else pure ()
/-- Ignore an error (or print it, which is taken to succeed and to have no effect).
(For e.g. `src/windows/terminal.rs:332-334`.) -/
def ignore {σ : Type} (m : SM σ Unit) : SM σ Unit := fun s =>
  match m s with
  | .err _ s' => .ok () s'
  | r => r

/-- On an error run `c`, ignoring its own error, and return the first error.
(For `src/windows/terminal.rs:577-604`.) -/
def onErr {σ α : Type} (m : SM σ α) (c : SM σ Unit) : SM σ α := fun s =>
  match m s with
  | .err e s' =>
    match c s' with
    | .ok _ s'' => .err e s''
    | .err _ s'' => .err e s''
    | .stop w => .stop w
  | r => r

end SM

/-! ## The console's side -/

/-- `SMALL_RECT`. (For `src/windows/terminal.rs:622-688`.) -/
structure Rect where
  left : Int
  top : Int
  right : Int
  bottom : Int
deriving DecidableEq, Repr

/-- `CONSOLE_SCREEN_BUFFER_INFO`: the fields the code reads. (For `src/windows/terminal.rs:1003-1009`.) -/
structure Info where
  size : Coord
  cursor : Coord
  attrs : BitVec 16
  window : Rect
deriving DecidableEq, Repr

/-- The calls. Handles are numbers; the null handle is 0. `atomic` is not a call but an access to `CATCH_SIGNALS` or
`LAST_SIGNAL`. (For the calls of winapi at `src/windows/terminal.rs:124-1337`.) -/
inductive ConCall
  | getStd (id : Nat)
  | getMode (h : Nat)
  | setMode (h : Nat) (mode : BitVec 32)
  | setCtrlHandler (add : Bool)
  | getInfo (h : Nat)
  | setAttr (h : Nat) (attrs : BitVec 16)
  | setCursorPos (h : Nat) (pos : Coord)
  | setCursorInfo (h : Nat) (size : Nat) (visible : Bool)
  | write (h : Nat) (units : List (BitVec 16))
  | fillAttr (h : Nat) (attrs : BitVec 16) (n : BitVec 32) (start : Coord)
  | fillChar (h : Nat) (ch : Char) (n : BitVec 32) (start : Coord)
  | setWindow (h : Nat) (window : Rect)
  | scroll (h : Nat) (src : Rect) (dest : Coord)
  | create
  | setBufSize (h : Nat) (size : Coord)
  | setActive (h : Nat)
  | close (h : Nat)
  | wait (h : Nat) (ms : BitVec 32)
  | readInput (h : Nat) (len : BitVec 32)
  | readConsole (h : Nat) (len : BitVec 32)
  | atomic
deriving DecidableEq

/-- The answers. (For the calls of winapi at `src/windows/terminal.rs:124-1337`.) -/
inductive Ans
  | fail | ok | timeout
  | handle (h : Nat)
  | mode (m : BitVec 32)
  | info (i : Info)
  | wrote (n : Nat)
  | recs (l : List InRec)
  | chars (l : List (BitVec 16))
deriving DecidableEq

/-- What happens by itself: a console control event for which the system calls `ctrl_handler`
(`woke`: the handler's own calls, lines 1299-1317, succeed), and input. -/
inductive WHap
  | ctrl (type : BitVec 32) (woke : Bool)
  | input (r : InRec)
deriving DecidableEq

/-- A step of the schedule. (For the calls of winapi at `src/windows/terminal.rs:124-1337`.) -/
structure ConStep where
  haps : List WHap := []
  ans : Ans
deriving DecidableEq

/-- The record: control events with what `ctrl_handler` returned and whether it wrote its record to
the input queue, input, and calls. (For `src/windows/terminal.rs:1286-1321`.) -/
inductive WEv
  | ctrl (type : BitVec 32) (handled : Bool) (woke : Bool)
  | input (r : InRec)
  | call (c : ConCall) (a : Ans)
deriving DecidableEq

/-- `src/windows/terminal.rs:111-116` `Writer`, 106-109 `Reader`, 1267-1271 the statics; the schedule
and the record. -/
structure WinSt where
  outH : Nat
  theme : Theme
  rd : WReader
  catchSet : BitVec 64
  last : BitVec 64
  os : List ConStep
  log : List WEv
deriving DecidableEq

/-- `src/windows/terminal.rs:85-91` `Terminal`, apart from the reader and the writer. -/
structure WTerm where
  inH : Nat
  defAttrs : BitVec 16
  oldOut : BitVec 32
deriving DecidableEq

/-- Code of the Windows terminal. (For `src/windows/terminal.rs:123-1337`.) -/
abbrev WM := SM WinSt

/-! ## Console control events: 1267-1337 -/

/-- winapi `CTRL_C_EVENT`. (For `src/windows/terminal.rs:1280`, 1288, 1326.) -/
def CTRL_C : BitVec 32 := 0
/-- winapi `CTRL_BREAK_EVENT`. (For `src/windows/terminal.rs:1277`, 1288.) -/
def CTRL_BREAK : BitVec 32 := 1

/-- `src/windows/terminal.rs:1273-1284` `catch_signals`: the value stored. -/
def catchBits (set : SignalSet) : BitVec 64 :=
  let sigs : BitVec 64 := 0
  let sigs := if set.contains .break then sigs ||| (1 <<< CTRL_BREAK.toNat) else sigs
  if set.contains .interrupt then sigs ||| (1 <<< CTRL_C.toNat) else sigs

/-- `src/windows/terminal.rs:1286-1321` `ctrl_handler`, run by the system. -/
def ctrlHandler (type : BitVec 32) (woke : Bool) (s : WinSt) : WinSt :=
  if type = CTRL_BREAK ∨ type = CTRL_C then
    if s.catchSet &&& (1 <<< type.toNat) = 0 then { s with log := s.log ++ [.ctrl type false false] }
    else { s with last := type.setWidth 64, log := s.log ++ [.ctrl type true woke] }
  else { s with log := s.log ++ [.ctrl type false false] }

/-- What happens by itself. (`src/windows/terminal.rs:1286-1321`.) -/
def WHap.run (s : WinSt) : WHap → WinSt
  | .ctrl type woke => ctrlHandler type woke s
  | .input r => { s with log := s.log ++ [.input r] }

/-- A call of the console. (For the calls of winapi at `src/windows/terminal.rs:124-1337`.) -/
def conCall (c : ConCall) : WM Ans := fun s =>
  match s.os with
  | [] => .stop .blocked
  | st :: os =>
    let s' := st.haps.foldl WHap.run { s with os := os }
    .ok st.ans { s' with log := s'.log ++ [.call c st.ans] }

/-- `src/windows/terminal.rs:1323-1329` `conv_signal`. -/
def convCtrl (n : BitVec 32) : Option Signal :=
  if n = CTRL_BREAK then some .break else if n = CTRL_C then some .interrupt else none

/-- `!0`. (`src/windows/terminal.rs:1271`.) -/
def noSignal : BitVec 64 := ~~~0

/-- `src/windows/terminal.rs:1331-1333` `get_signal`. -/
def getCtrl : WM (Option Signal) := do
  let _ ← conCall .atomic
  let s ← SM.get
  pure (convCtrl (s.last.truncate 32))

/-- `src/windows/terminal.rs:1335-1337` `take_signal`. -/
def takeCtrl : WM (Option Signal) := do
  let _ ← conCall .atomic
  let s ← SM.get
  SM.modify fun s => { s with last := noSignal }
  pure (convCtrl (s.last.truncate 32))

/-- `src/windows/terminal.rs:1273-1284` `catch_signals`. -/
def catchSignals (set : SignalSet) : WM Unit := do
  let _ ← conCall .atomic
  SM.modify fun s => { s with catchSet := catchBits set }

/-! ## Calls and their results: 999-1028, 1251-1265 -/

/-- `src/windows/terminal.rs:1251-1257` `result_bool` of a call. -/
def boolCall (c : ConCall) : WM Unit := do
  match ← conCall c with
  | .ok => pure ()
  | .fail => SM.throw .os
  | _ => SM.halt .blocked

/-- `src/windows/terminal.rs:1259-1265` `result_handle` of a call. -/
def handleCall (c : ConCall) : WM Nat := do
  match ← conCall c with
  | .handle h => if h = 0 then SM.throw .os else pure h
  | _ => SM.halt .blocked

/-- `src/windows/terminal.rs:1003-1009` `console_info`. -/
def consoleInfo (h : Nat) : WM Info := do
  match ← conCall (.getInfo h) with
  | .info i => pure i
  | .fail => SM.throw .os
  | _ => SM.halt .blocked

/-- `src/windows/terminal.rs:1011-1017` `console_mode`. -/
def consoleMode (h : Nat) : WM (BitVec 32) := do
  match ← conCall (.getMode h) with
  | .mode m => pure m
  | .fail => SM.throw .os
  | _ => SM.halt .blocked

/-- `src/windows/terminal.rs:1019-1023` `console_size`. -/
def consoleSize (h : Nat) : WM Size := do
  let i ← consoleInfo h
  pure (coordToSize i.size)

/-- `src/windows/terminal.rs:1025-1028` `set_console_mode`. -/
def setConsoleMode (h : Nat) (m : BitVec 32) : WM Unit := boolCall (.setMode h m)

/-! ## Reading: 351-515 -/

/-- winapi, wincon.h. (For `src/windows/terminal.rs:372-374`.) -/
def ENABLE_PROCESSED_INPUT : BitVec 32 := 0x1
/-- winapi, wincon.h. (For `src/windows/terminal.rs:368`.) -/
def ENABLE_LINE_INPUT : BitVec 32 := 0x2
/-- winapi, wincon.h. (For `src/windows/terminal.rs:366`.) -/
def ENABLE_ECHO_INPUT : BitVec 32 := 0x4
/-- winapi, wincon.h. (For `src/windows/terminal.rs:389`.) -/
def ENABLE_WINDOW_INPUT : BitVec 32 := 0x8
/-- winapi, wincon.h. (For `src/windows/terminal.rs:380-382`.) -/
def ENABLE_MOUSE_INPUT : BitVec 32 := 0x10
/-- winapi, wincon.h. (For `src/windows/terminal.rs:386`.) -/
def ENABLE_QUICK_EDIT_MODE : BitVec 32 := 0x40
/-- winapi, wincon.h. (For `src/windows/terminal.rs:363`, 420.) -/
def ENABLE_EXTENDED_FLAGS : BitVec 32 := 0x80
/-- winapi, wincon.h. (For `src/windows/terminal.rs:392`.) -/
def ENABLE_VIRTUAL_TERMINAL_INPUT : BitVec 32 := 0x200
/-- winapi, wincon.h. (For `src/windows/terminal.rs:1041`.) -/
def ENABLE_PROCESSED_OUTPUT : BitVec 32 := 0x1
/-- winapi, wincon.h. (For `src/windows/terminal.rs:599`, 1044.) -/
def ENABLE_WRAP_AT_EOL_OUTPUT : BitVec 32 := 0x2
/-- winapi, wincon.h. (For `src/windows/terminal.rs:599`.) -/
def DISABLE_NEWLINE_AUTO_RETURN : BitVec 32 := 0x8

/-- `src/windows/terminal.rs:360-392`: the input mode set by `prepare_with_lock`. -/
def prepareMode (cfg : PrepareConfig) (old : BitVec 32) : BitVec 32 :=
  let m := old
  let m := m ||| ENABLE_EXTENDED_FLAGS
  let m := m &&& ~~~ENABLE_ECHO_INPUT
  let m := m &&& ~~~ENABLE_LINE_INPUT
  let m := if cfg.blockSignals then m &&& ~~~ENABLE_PROCESSED_INPUT else m ||| ENABLE_PROCESSED_INPUT
  let m := if cfg.enableMouse then m ||| ENABLE_MOUSE_INPUT else m &&& ~~~ENABLE_MOUSE_INPUT
  let m := m &&& ~~~ENABLE_QUICK_EDIT_MODE
  let m := m ||| ENABLE_WINDOW_INPUT
  m &&& ~~~ENABLE_VIRTUAL_TERMINAL_INPUT

/-- `src/windows/terminal.rs:118-121` `PrepareState`. -/
structure WinPrepared where
  oldIn : BitVec 32
  clearHandler : Bool
deriving DecidableEq

/-- `src/windows/terminal.rs:351-405` `prepare_with_lock` (the assignment to `always_track_motion`,
line 379, comes before the calls that can fail). -/
def winPrepare (t : WTerm) (cfg : PrepareConfig) : WM WinPrepared := do
  let old ← consoleMode t.inH
  SM.when cfg.enableMouse <|
    SM.modify fun s => { s with rd := { s.rd with track := cfg.alwaysTrackMotion } }
  setConsoleMode t.inH (prepareMode cfg old)
  if cfg.reportSignals.intersects (SignalSet.orSignals .break .interrupt) then
    catchSignals cfg.reportSignals
    boolCall (.setCtrlHandler true)
    pure { oldIn := old, clearHandler := true }
  else
    pure { oldIn := old, clearHandler := false }

/-- `src/windows/terminal.rs:412-424` `restore_with_lock`. -/
def winRestore (t : WTerm) (st : WinPrepared) : WM Unit := do
  SM.when st.clearHandler <| boolCall (.setCtrlHandler false)
  setConsoleMode t.inH (st.oldIn ||| ENABLE_EXTENDED_FLAGS)

/-- `src/windows/terminal.rs:426-439` `wait_event`. -/
def winWait (t : WTerm) (timeout : Option Duration) : WM Bool := do
  match ← getCtrl with
  | some _ => pure true
  | none =>
    let ms ← SM.ofPanics (asMillis timeout)
    match ← conCall (.wait t.inH ms) with
    | .ok => pure true
    | .timeout => pure false
    | .fail => SM.throw .os
    | _ => SM.halt .blocked

/-- `src/windows/terminal.rs:495-515` `read_raw_event`: the event, and the records written to the
array of `len` records. -/
def winReadRawEvent (t : WTerm) (len : Nat) (timeout : Option Duration) :
    WM (Option Event × List InRec) := do
  if !(← winWait t timeout) then pure (none, [])
  else
    match ← takeCtrl with
    | some sig => pure (some (.signal sig), [])
    | none =>
      match ← conCall (.readInput t.inH (toDword len)) with
      | .recs l => if l.length ≤ len then pure (some (.raw l.length), l) else SM.halt .blocked
      | .fail => SM.throw .os
      | _ => SM.halt .blocked

/-- `src/windows/terminal.rs:441-464` `read_event`. -/
def winReadEvent (t : WTerm) (timeout : Option Duration) : WM (Option Event) := do
  match ← winReadRawEvent t 1 timeout with
  | (some (.raw _), l) =>
    match l with
    | [] => pure none
    | e :: _ =>
      let s ← SM.get
      let (ev, rd) ← SM.ofPanics (recordEvent s.rd e)
      SM.modify fun s => { s with rd := rd }
      pure (some ev)
  | (r, _) => pure r

/-- `src/windows/terminal.rs:466-491` `read_raw`: the event, and the characters written to the
array of `len` characters. -/
def winReadRaw (t : WTerm) (len : Nat) (timeout : Option Duration) :
    WM (Option Event × List (BitVec 16)) := do
  if !(← winWait t timeout) then pure (none, [])
  else
    match ← takeCtrl with
    | some sig => pure (some (.signal sig), [])
    | none =>
      match ← conCall (.readConsole t.inH (toDword len)) with
      | .chars l =>
        if l.length ≤ len then
          if l.length = 0 then pure (none, []) else pure (some (.raw l.length), l)
        else SM.halt .blocked
      | .fail => SM.throw .os
      | _ => SM.halt .blocked

/-! ## Writing: 572-927 -/

/-- `src/windows/terminal.rs:614-616` `size`. -/
def winSize : WM Size := do consoleSize (← SM.get).outH

/-- `src/windows/terminal.rs:897-900` `move_abs`. -/
def moveAbs (p : Coord) : WM Unit := do boolCall (.setCursorPos (← SM.get).outH p)

/-- `src/windows/terminal.rs:877-895` `clear_area`. -/
def clearArea (t : WTerm) (start : Coord) (n : BitVec 32) : WM Unit := do
  let h := (← SM.get).outH
  boolCall (.fillAttr h t.defAttrs n start)
  boolCall (.fillChar h ' ' n start)

/-- `src/windows/terminal.rs:628-633`: the whole buffer. -/
def wholeCount (size : Coord) : Panics (BitVec 32) :=
  dword ((shortToDword size.x).toNat * (shortToDword size.y).toNat)

/-- `src/windows/terminal.rs:642-651`: moving the window down. -/
def moveWindow (h : Nat) (r : Rect) (down : Int) : WM Rect :=
  if down > 0 then do
    let top ← SM.ofPanics (short (r.top + down))
    let bottom ← SM.ofPanics (short (r.bottom + down))
    let win := { r with top := top, bottom := bottom }
    boolCall (.setWindow h win)
    pure win
  else pure r

/-- `src/windows/terminal.rs:622-688` `clear_screen`. (`ScrollConsoleScreenBufferW` is told to fill
with blanks of attribute 0, lines 669-672.) -/
def winClearScreen (t : WTerm) : WM Unit := do
  let h := (← SM.get).outH
  let info ← consoleInfo h
  let ht ← SM.ofPanics (short (info.window.bottom - info.window.top))
  let ht ← SM.ofPanics (short (ht + 1))
  if ht = info.size.y then
    let n ← SM.ofPanics (wholeCount info.size)
    clearArea t ⟨0, 0⟩ n
    moveAbs ⟨info.window.left, info.window.top⟩
  else
    let b1 ← SM.ofPanics (short (info.window.bottom + 1))
    let max ← SM.ofPanics (short (info.size.y - b1))
    let c1 ← SM.ofPanics (short (info.cursor.y + 1))
    let dist ← SM.ofPanics (short (c1 - info.window.top))
    let down := min dist max
    let win ← moveWindow h info.window down
    let clear ← SM.ofPanics (short (win.bottom - info.cursor.y))
    SM.when (clear < ht) do
      let d ← SM.ofPanics (short (ht - clear))
      boolCall (.scroll h ⟨0, d, info.size.x, info.cursor.y⟩ ⟨0, 0⟩)
    moveAbs ⟨win.left, win.top⟩

/-- `src/windows/terminal.rs:690-697` `clear_to_line_end`. -/
def winClearToLineEnd (t : WTerm) : WM Unit := do
  let info ← consoleInfo (← SM.get).outH
  let n ← SM.ofPanics (lineEndCount info.size info.cursor)
  clearArea t info.cursor n

/-- `src/windows/terminal.rs:699-711` `clear_to_screen_end`. -/
def winClearToScreenEnd (t : WTerm) : WM Unit := do
  let info ← consoleInfo (← SM.get).outH
  let n ← SM.ofPanics (screenEndCount info.size info.cursor)
  clearArea t info.cursor n

/-- `src/windows/terminal.rs:713-715` `move_cursor`. -/
def winMoveCursor (p : Cursor) : WM Unit := moveAbs (cursorToCoord p)

/-- `src/windows/terminal.rs:717-720` `move_to_first_column`. -/
def winFirstColumn : WM Unit := do
  let info ← consoleInfo (← SM.get).outH
  moveAbs ⟨0, info.cursor.y⟩

/-- `src/windows/terminal.rs:902-914` `move_rel`. -/
def moveRel (off : Coord) : WM Unit := do
  let info ← consoleInfo (← SM.get).outH
  let dest ← SM.ofPanics (moveRelDest info.size info.cursor off)
  moveAbs dest

/-- `src/windows/terminal.rs:722-724` `move_up`. -/
def winMoveUp (n : Nat) : WM Unit := moveRel ⟨0, toShortNeg n⟩

/-- `src/windows/terminal.rs:726-728` `move_down`. -/
def winMoveDown (n : Nat) : WM Unit := moveRel ⟨0, toShort n⟩

/-- `src/windows/terminal.rs:730-732` `move_left`. -/
def winMoveLeft (n : Nat) : WM Unit := moveRel ⟨toShortNeg n, 0⟩

/-- `src/windows/terminal.rs:734-736` `move_right`. -/
def winMoveRight (n : Nat) : WM Unit := moveRel ⟨toShort n, 0⟩

/-- `src/windows/terminal.rs:738-751` `set_cursor_mode`. -/
def winCursorMode (m : CursorMode) : WM Unit := do
  let (size, visible) := match m with
    | .normal => (25, true)
    | .invisible => (1, false)
    | .overwrite => (100, true)
  boolCall (.setCursorInfo (← SM.get).outH size visible)

/-- `src/windows/terminal.rs:821-841` `update_attrs`, with `set_attrs` (916-919). -/
def updateAttrs (t : WTerm) : WM Unit := do
  let s ← SM.get
  boolCall (.setAttr s.outH (attrWord t.defAttrs s.theme.fg s.theme.bg s.theme.style))

/-- `src/windows/terminal.rs:809-819` `set_attributes`. -/
def winSetAttributes (t : WTerm) (th : Theme) : WM Unit := do
  if (← SM.get).theme ≠ th then
    SM.modify fun s => { s with theme := th }
    updateAttrs t

/-- `src/windows/terminal.rs:753-755` `clear_attributes`. -/
def winClearAttributes (t : WTerm) : WM Unit := winSetAttributes t ⟨none, none, .empty⟩

/-- `src/windows/terminal.rs:757-766` `add_style`. -/
def winAddStyle (t : WTerm) (style : Style) : WM Unit := do
  let add := Style.diff style (← SM.get).theme.style
  if !add.isEmpty then
    SM.modify fun s => { s with theme := { s.theme with style := s.theme.style ||| add } }
    updateAttrs t

/-- `src/windows/terminal.rs:768-777` `remove_style`. -/
def winRemoveStyle (t : WTerm) (style : Style) : WM Unit := do
  let remove := style &&& (← SM.get).theme.style
  if !remove.isEmpty then
    SM.modify fun s => { s with theme := { s.theme with style := Style.diff s.theme.style remove } }
    updateAttrs t

/-- `src/windows/terminal.rs:779-785` `set_style`. -/
def winSetStyle (t : WTerm) (style : Style) : WM Unit := do
  if (← SM.get).theme.style ≠ style then
    SM.modify fun s => { s with theme := { s.theme with style := style } }
    updateAttrs t

/-- `src/windows/terminal.rs:787-794` `set_fg`. -/
def winSetFg (t : WTerm) (fg : Option Color) : WM Unit := do
  if (← SM.get).theme.fg ≠ fg then
    SM.modify fun s => { s with theme := { s.theme with fg := fg } }
    updateAttrs t

/-- `src/windows/terminal.rs:796-802` `set_bg`. -/
def winSetBg (t : WTerm) (bg : Option Color) : WM Unit := do
  if (← SM.get).theme.bg ≠ bg then
    SM.modify fun s => { s with theme := { s.theme with bg := bg } }
    updateAttrs t

/-- `src/windows/terminal.rs:852-864`: the loop of `write_str` on the rest of the text; the first
argument bounds the number of rounds (each takes a step of the schedule). -/
def writeLoop (h : Nat) : Nat → List (BitVec 16) → WM Unit
  | 0, buf => if buf.length > 0 then SM.halt .blocked else pure ()
  | f + 1, buf =>
    if buf.length > 0 then do
      match ← conCall (.write h (buf.take (toDword buf.length).toNat)) with
      | .wrote n => writeLoop h f (buf.drop n)
      | .fail => SM.throw .os
      | _ => SM.halt .blocked
    else pure ()

/-- `src/windows/terminal.rs:848-867` `write_str`. -/
def winWriteStr (text : List Char) : WM Unit := do
  let s ← SM.get
  writeLoop s.outH s.os.length (text.flatMap encodeUtf16)

/-- `src/windows/terminal.rs:843-846` `write_char`. -/
def winWriteChar (ch : Char) : WM Unit := winWriteStr [ch]

/-- `src/windows/terminal.rs:618-620` `flush`. (`TerminalWriteGuard` has no `Drop`, lines 930-931.) -/
def winFlush : WM Unit := pure ()

/-- `src/windows/terminal.rs:869-875` `write_styled`. -/
def winWriteStyled (t : WTerm) (th : Theme) (text : List Char) : WM Unit := do
  winSetAttributes t th
  winWriteStr text
  winClearAttributes t

/-! ## Screens and the terminal as a whole -/

/-- `src/windows/terminal.rs:1030-1033` `setup_screen`. -/
def setupScreen (h : Nat) (size : Size) : WM Unit := do
  boolCall (.setBufSize h (sizeToCoord size))
  boolCall (.setActive h)

/-- `src/windows/terminal.rs:577-604` `enter_screen`: the old handle. -/
def winEnterScreen : WM Nat := do
  let size ← winSize
  let h ← handleCall .create
  SM.onErr (setupScreen h size) (boolCall (.close h))
  let old := (← SM.get).outH
  SM.modify fun s => { s with outH := h }
  let m ← consoleMode h
  setConsoleMode h (m &&& ~~~(ENABLE_WRAP_AT_EOL_OUTPUT ||| DISABLE_NEWLINE_AUTO_RETURN))
  pure old

/-- `src/windows/terminal.rs:606-612` `exit_screen`. -/
def winExitScreen (old : Nat) : WM Unit := do
  boolCall (.setActive old)
  let h := (← SM.get).outH
  SM.modify fun s => { s with outH := old }
  boolCall (.close h)

/-- `src/windows/terminal.rs:1035-1049` `prepare_output`: the old mode. -/
def prepareOutput (h : Nat) : WM (BitVec 32) := do
  let old ← consoleMode h
  setConsoleMode h (old ||| ENABLE_PROCESSED_OUTPUT ||| ENABLE_WRAP_AT_EOL_OUTPUT)
  pure old

/-- `src/windows/terminal.rs:124-149` `Terminal::new`: the terminal; the fields of its reader and
writer go to the state. `GetStdHandle` is called for standard input (0) and `out`. -/
def winNew (out : Nat) : WM WTerm := do
  let inH ← handleCall (.getStd 0)
  let outH ← handleCall (.getStd out)
  let i ← consoleInfo outH
  let old ← prepareOutput outH
  SM.modify fun s => { s with outH := outH, theme := ⟨none, none, .empty⟩, rd := ⟨false, 0⟩ }
  pure { inH := inH, defAttrs := i.attrs, oldOut := old }

/-- `src/windows/terminal.rs:323-336` `Drop for Terminal`. -/
def winTermDrop (t : WTerm) : WM Unit :=
  SM.ignore do
    winCursorMode .normal
    setConsoleMode (← SM.get).outH t.oldOut

end Mortal
