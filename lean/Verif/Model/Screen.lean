import Verif.Model.Buffer
import Verif.Model.Writer
import Verif.Model.Utf8

/-!
# `src/unix/screen.rs`: drawing the buffer on the terminal

Locks are not part of this file: every function here runs with both of the screen's locks held.
-/

namespace Mortal

/-- `src/unix/screen.rs:30-34` `Writer` (the data of a screen). -/
structure SData where
  buf : Buf
  clear : Bool
  real : Cursor
deriving DecidableEq

/-- `src/unix/screen.rs:25-28` `ScreenWriteGuard`: the screen's data and the terminal's writer. -/
structure Scr extends SData where
  w : WS
deriving DecidableEq

/-- `src/unix/screen.rs:41-50`: the data of a new screen. -/
def SData.new (size : Size) : SData := { buf := .new size, clear := false, real := .default }

/-- A call on the field `writer`. (`src/unix/screen.rs:25-28`, 174-225.) -/
def Scr.onW (f : WS → Outcome WS) (s : Scr) : Outcome Scr :=
  match f s.w with
  | .ok w => .ok { s with w := w }
  | .err e w => .err e { s with w := w }
  | .stop h => .stop h

/-- `src/unix/screen.rs:212-219` `move_cursor`. -/
def Scr.moveCursor (env : WEnv) (pos : Cursor) (s : Scr) : Outcome Scr :=
  if s.real ≠ pos then
    s.onW (Mortal.moveCursor env pos) >>? fun s => .ok { s with real := pos }
  else .ok s

/-- `src/unix/screen.rs:191-195`: the body of the loop of `refresh`, with `apply_attrs` (221-225) and
`Cell::attrs` (`src/buffer.rs:498-500`). -/
def Scr.drawCell (env : WEnv) (pos : Cursor) (cell : Cell) (s : Scr) : Outcome Scr :=
  s.moveCursor env pos >>?
  Scr.onW (setAttrs env cell.fg cell.bg cell.style) >>?
  Scr.onW (writeBytes (encode cell.text)) >>? fun s =>
  match uadd s.real.column 1 with
  | none => .stop .panic
  | some c => .ok { s with real := { s.real with column := c } }

/-- `src/unix/screen.rs:188-196`: the loop of `refresh` on the range `idx .. idx + n`. The first
argument bounds the number of rounds. -/
def Scr.drawLoop (u : UEnv) (env : WEnv) : Nat → Nat × Nat → Scr → Outcome Scr
  | 0, _, _ => .stop .fuel
  | f + 1, (idx, n), s =>
    match s.buf.nextCell u n idx with
    | none => .stop .panic
    | some (b, _, none) => .ok { s with buf := b }
    | some (b, rest, some (pos, cell)) =>
      ({ s with buf := b } : Scr).drawCell env pos cell >>? drawLoop u env f rest

/-- `src/unix/screen.rs:200-207`: the final cursor movement of `refresh`. -/
def Scr.placeCursor (env : WEnv) (s : Scr) : Outcome Scr :=
  if s.buf.cursor.isOutOfBounds s.buf.size then
    match Cursor.last s.buf.size with
    | none => .stop .panic
    | some p => s.moveCursor env p
  else s.moveCursor env s.buf.cursor

/-- `src/unix/screen.rs:181-184`: the beginning of `refresh`. -/
def Scr.clearIfNeeded (env : WEnv) (s : Scr) : Outcome Scr :=
  if s.clear then s.onW (expandReq env .clearScreen []) >>? fun s => .ok { s with clear := false }
  else .ok s

/-- `src/unix/screen.rs:180-210` `refresh`. -/
def Scr.refresh (u : UEnv) (env : WEnv) (s : Scr) : Outcome Scr :=
  s.clearIfNeeded env >>?
  Scr.onW (clearAttributes env) >>? fun s =>
  s.drawLoop u env (s.buf.size.area + 1) (0, s.buf.size.area) >>?
  Scr.onW (clearAttributes env) >>?
  Scr.placeCursor env >>?
  Scr.onW flush

/-- `src/unix/screen.rs:237-244` `update_size`. -/
def SData.updateSize (size : Size) (d : SData) : Panics SData := do
  let real := if d.real.isOutOfBounds size then ⟨usizeMax, usizeMax⟩ else d.real
  let b ← d.buf.resize size
  pure { buf := b, clear := true, real := real }

end Mortal
