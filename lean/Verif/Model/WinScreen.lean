import Verif.Model.Win
import Verif.Model.ScreenUnix

/-!
# `src/windows/screen.rs`

The data of a screen (`src/windows/screen.rs:37-41` `Writer`) is the same as in the Unix
implementation, and so is `update_size` (272-281): both are `SData`. Locks are not part of this file
(see `Model/Locks.lean`).
-/

namespace Mortal

/-- `src/windows/screen.rs:32-35` `ScreenWriteGuard`: the screen's data and the terminal. -/
structure WScr extends SData where
  w : WinSt
deriving DecidableEq

/-- Code of a Windows screen. (For `src/windows/screen.rs:43-281`.) -/
abbrev SWM := SM WScr

/-- A call on the terminal. (For `src/windows/screen.rs:43-132`.) -/
def onT {α : Type} (m : WM α) : SWM α := fun s =>
  match m s.w with
  | .ok a w => .ok a { s with w := w }
  | .err e w => .err e { s with w := w }
  | .stop x => .stop x

/-- `src/windows/screen.rs:255-261` `move_cursor`. -/
def wsMoveCursor (pos : Cursor) : SWM Unit := do
  if (← SM.get).real ≠ pos then
    onT (winMoveCursor pos)
    SM.modify fun s => { s with real := pos }

/-- `src/windows/screen.rs:246-253` `apply_attrs`. -/
def applyAttrs (t : WTerm) (src dest : Theme) : SWM Unit := do
  if src ≠ dest then onT (winSetAttributes t dest)

/-- `src/buffer.rs:498-500` `Cell::attrs` (the attributes of a cell). -/
def cellTheme (c : Cell) : Theme := ⟨c.fg, c.bg, c.style⟩

/-- `src/windows/screen.rs:223-227`: the body of the loop of `refresh`. -/
def wsDrawCell (t : WTerm) (src : Theme) (pos : Cursor) (cell : Cell) : SWM Unit := do
  wsMoveCursor pos
  applyAttrs t src (cellTheme cell)
  onT (winWriteStr cell.text)
  let c ← SM.ofPanics (uadd (← SM.get).real.column 1)
  SM.modify fun s => { s with real := { s.real with column := c } }

/-- `src/windows/screen.rs:220-230`: the loop of `refresh` on the range `idx .. idx + n`; `src` is
`real_attrs`. The first argument bounds the number of rounds. -/
def wsDrawLoop (u : UEnv) (t : WTerm) : Nat → Nat × Nat → Theme → SWM Unit
  | 0, _, _ => SM.halt .fuel
  | f + 1, (idx, n), src => do
    let (b, rest, found) ← SM.ofPanics ((← SM.get).buf.nextCell u n idx)
    SM.modify fun s => { s with buf := b }
    match found with
    | none => pure ()
    | some (pos, cell) =>
      wsDrawCell t src pos cell
      wsDrawLoop u t f rest (cellTheme cell)

/-- `src/windows/screen.rs:234-241`: the final cursor movement of `refresh`. -/
def wsPlaceCursor : SWM Unit := do
  let s ← SM.get
  if s.buf.cursor.isOutOfBounds s.buf.size then
    let p ← SM.ofPanics (Cursor.last s.buf.size)
    wsMoveCursor p
  else wsMoveCursor s.buf.cursor

/-- `src/windows/screen.rs:211-214`: the beginning of `refresh`. -/
def wsClearIfNeeded (t : WTerm) : SWM Unit := do
  let s ← SM.get
  SM.when s.clear do
    onT (winClearScreen t)
    SM.modify fun s => { s with clear := false }

/-- `src/windows/screen.rs:210-244` `refresh`. -/
def wsRefresh (u : UEnv) (t : WTerm) : SWM Unit := do
  wsClearIfNeeded t
  onT (winClearAttributes t)
  let s ← SM.get
  wsDrawLoop u t (s.buf.size.area + 1) (0, s.buf.size.area) ⟨none, none, .empty⟩
  onT (winClearAttributes t)
  wsPlaceCursor

/-- `src/windows/screen.rs:264-270` `Drop for ScreenWriteGuard`. -/
def wsGuardDrop (u : UEnv) (t : WTerm) : SWM Unit := SM.ignore (wsRefresh u t)

/-- `src/windows/screen.rs:129-131` `Screen::refresh`: the guard is dropped after the call, also when
it failed. -/
def wsRefreshCall (u : UEnv) (t : WTerm) : SWM Unit := fun s =>
  match wsRefresh u t s with
  | .ok _ s' => wsGuardDrop u t s'
  | .err e s' =>
    match wsGuardDrop u t s' with
    | .ok _ s'' => .err e s''
    | .err e' s'' => .err e' s''
    | .stop h => .stop h
  | .stop h => .stop h

/-- A call on a write guard (`src/windows/screen.rs:198-210`). Drawing calls are those of the buffer
(`forward_screen_buffer_mut_methods!`). -/
def wsCall (u : UEnv) (t : WTerm) : GOp → SWM Unit
  | .draw op => do
    let b ← SM.ofPanics (op.run u (← SM.get).buf)
    SM.modify fun s => { s with buf := b }
  | .refresh => wsRefresh u t
  | .setCursorMode m => onT (winCursorMode m)

/-- A guard held for some calls, by a program that carries on after errors, and then dropped.
(`src/windows/screen.rs:198-270`.) -/
def wsGuardSession (u : UEnv) (t : WTerm) : List GOp → SWM Unit
  | [] => wsGuardDrop u t
  | op :: ops => do
    SM.ignore (wsCall u t op)
    wsGuardSession u t ops

/-- `src/windows/screen.rs:272-281` `update_size`, through `lock_write_data` (100-102). -/
def wsUpdateSize (size : Size) : SWM Unit := do
  let d ← SM.ofPanics ((← SM.get).updateSize size)
  SM.modify fun s => { s with toSData := d }

/-- `src/windows/screen.rs:161-169` `read_event`. -/
def wsReadEvent (t : WTerm) (timeout : Option Duration) : SWM (Option Event) := do
  let r ← onT (winReadEvent t timeout)
  match r with
  | some (.resize size) => wsUpdateSize size; pure r
  | _ => pure r

/-- `src/windows/screen.rs:171-179` `read_raw`. -/
def wsReadRaw (t : WTerm) (len : Nat) (timeout : Option Duration) :
    SWM (Option Event × List (BitVec 16)) := do
  let r ← onT (winReadRaw t len timeout)
  match r.1 with
  | some (.resize size) => wsUpdateSize size; pure r
  | _ => pure r

/-- `src/windows/screen.rs:181-195` `read_raw_event`. The records read replace the beginning of the
array; `events[..n]` is exactly these. -/
def wsReadRawEvent (t : WTerm) (len : Nat) (timeout : Option Duration) :
    SWM (Option Event × List InRec) := do
  let r ← onT (winReadRawEvent t len timeout)
  match r.1 with
  | some (.raw _) =>
    match r.2.reverse.findSome? sizeEvent with
    | some size => wsUpdateSize size; pure r
    | none => pure r
  | _ => pure r

/-- `src/windows/screen.rs:19-25` `Screen`, apart from the terminal and the writer. -/
structure WScreen where
  state : WinPrepared
  old : Nat
deriving DecidableEq

/-- `src/windows/screen.rs:44-60` `Screen::new`: the new screen, and its writer's data. The terminal
is owned by the function, so that it is dropped (`src/windows/terminal.rs:323-336`) on an error. -/
def winScreenNew (t : WTerm) (cfg : PrepareConfig) : WM (WScreen × SData) :=
  SM.onErr (do
    let size ← winSize
    let old ← winEnterScreen
    let state ← winPrepare t cfg
    pure (⟨state, old⟩, SData.new size)) (winTermDrop t)

/-- `src/windows/screen.rs:134-147` `Drop for Screen`, and of its terminal after it. -/
def winScreenDrop (t : WTerm) (x : WScreen) : WM Unit := do
  SM.ignore do
    winRestore t x.state
    winExitScreen x.old
  winTermDrop t

end Mortal
