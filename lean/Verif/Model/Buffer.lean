import Verif.Model.Types

/-!
# `src/buffer.rs`: the screen buffer

`SmallString` cell text is a list of characters. The Unicode tables (`unicode-width`,
`unicode-normalization`) are a parameter `UEnv`.
-/

namespace Mortal

/-- The two Unicode tables the crate consults: `src/util.rs:9-13` `char_width` and
`src/util.rs:17-21` `is_combining_mark`. External crates; kept abstract. -/
structure UEnv where
  width : Char → Option Nat
  combining : Char → Bool

/-- `char_width(ch).unwrap_or(0)`. (`src/buffer.rs:113`, 189.) -/
def UEnv.w (env : UEnv) (ch : Char) : Nat := (env.width ch).getD 0

/-- `src/priv_util.rs:15-20` `is_visible`. -/
def isVisible (env : UEnv) (ch : Char) : Bool :=
  if ch = '\t' ∨ ch = '\r' ∨ ch = '\n' then true else env.w ch != 0

/-- `src/buffer.rs:10` -/
def TAB_STOP : Nat := 8

/-- `src/buffer.rs:471-477` `Cell`. -/
structure Cell where
  fg : Option Color
  bg : Option Color
  style : Style
  text : List Char
deriving DecidableEq

namespace Cell
/-- `src/buffer.rs:516-520` `Cell::default` (through `Cell::new`, lines 480-487). -/
def default : Cell := ⟨none, none, 0#8, [' ']⟩
/-- `src/buffer.rs:489-496` `Cell::invalid`. -/
def invalid : Cell := ⟨none, none, 0#8, []⟩
/-- `src/buffer.rs:506-508` `first_char`; `expect` on empty text is a panic. -/
def firstChar (c : Cell) : Panics Char := c.text.head?
/-- `src/buffer.rs:510-513` `is_wide`. -/
def isWide (env : UEnv) (c : Cell) : Bool :=
  match c.text.head? with
  | some ch => env.w ch == 2
  | none => false
end Cell

/-- `src/buffer.rs:12-21` `ScreenBuffer`. -/
structure Buf where
  buffer : List Cell
  back : List Cell
  size : Size
  cursor : Cursor
  fg : Option Color
  bg : Option Color
  style : Style
deriving DecidableEq

/-- `Result<(), OutOfBounds>` (`src/buffer.rs:468-469`). -/
inductive WRes | ok | oob
deriving DecidableEq, Repr

namespace Buf

/-- `src/buffer.rs:24-37` `new` (allocation of the area is assumed to succeed). -/
def new (size : Size) : Buf :=
  { buffer := List.replicate size.area .default, back := List.replicate size.area .default,
    size := size, cursor := .default, fg := none, bg := none, style := 0#8 }

/-- `src/buffer.rs:57-59` `set_cursor`. -/
def setCursor (b : Buf) (pos : Cursor) : Buf := { b with cursor := pos }

/-- `src/buffer.rs:61-64` `next_line`. -/
def nextLine (b : Buf) (column : Nat) : Panics Buf := do
  let l ← uadd b.cursor.line 1
  pure { b with cursor := ⟨l, column⟩ }

/-- `src/buffer.rs:66-70` `clear_attributes`. -/
def clearAttributes (b : Buf) : Buf := { b with fg := none, bg := none, style := 0#8 }
/-- `src/buffer.rs:72-74` `add_style`. -/
def addStyle (b : Buf) (s : Style) : Buf := { b with style := b.style ||| s }
/-- `src/buffer.rs:76-78` `remove_style`. -/
def removeStyle (b : Buf) (s : Style) : Buf := { b with style := Style.diff b.style s }
/-- `src/buffer.rs:80-82` `set_style`. -/
def setStyle (b : Buf) (s : Style) : Buf := { b with style := s }
/-- `src/buffer.rs:84-86` `set_fg`. -/
def setFg (b : Buf) (c : Option Color) : Buf := { b with fg := c }
/-- `src/buffer.rs:88-90` `set_bg`. -/
def setBg (b : Buf) (c : Option Color) : Buf := { b with bg := c }
/-- `src/buffer.rs:92-96` `set_theme`. -/
def setTheme (b : Buf) (t : Theme) : Buf := ((b.setFg t.fg).setBg t.bg).setStyle t.style

/-- `src/buffer.rs:98-102` `clear_screen`. -/
def clearScreen (b : Buf) : Buf := { b with buffer := b.buffer.map fun _ => Cell.default }

/-- `src/buffer.rs:268-274` `try_cursor_at`. -/
def tryCursorAt (b : Buf) (pos : Cursor) : WRes :=
  if pos.line ≥ b.size.lines ∨ pos.column ≥ b.size.columns then .oob else .ok

/-- `src/buffer.rs:264-266` `try_cursor`. -/
def tryCursor (b : Buf) : WRes := b.tryCursorAt b.cursor

/-- `src/buffer.rs:140-143` `cell_mut` used to overwrite a cell with `f old`; indexing out of range
panics. -/
def modCell (b : Buf) (pos : Cursor) (f : Cell → Cell) : Panics Buf :=
  match b.buffer[pos.asIndex b.size]? with
  | some c => some { b with buffer := b.buffer.set (pos.asIndex b.size) (f c) }
  | none => none

/-- `src/buffer.rs:145-156` `set_cell`. -/
def setCell (b : Buf) (pos : Cursor) (ch : Char) : Panics Buf :=
  b.modCell pos fun _ => ⟨b.fg, b.bg, b.style, [ch]⟩

/-- `src/buffer.rs:180-186`: blank the previous cell if it holds a wide character. -/
def tearPrev (env : UEnv) (b : Buf) : Panics Buf := do
  match ← b.cursor.previous b.size with
  | some prev => b.modCell prev fun c => if c.isWide env then Cell.default else c
  | none => pure b

/-- `src/buffer.rs:197-200`: `n` rounds of `set_cell(pos, ch); pos.column += 1`. -/
def fillLoop (ch : Char) : Nat → Cursor → Buf → Panics Buf
  | 0, _, b => some b
  | n + 1, pos, b => do
    let b ← b.setCell pos ch
    fillLoop ch n ⟨pos.line, pos.column + 1⟩ b

/-- `src/buffer.rs:211-214`: `n` rounds of `pos.column += 1; set_cell(pos, ' ')`. -/
def padLoop : Nat → Cursor → Buf → Panics Buf
  | 0, _, b => some b
  | n + 1, pos, b => do
    let b ← b.setCell ⟨pos.line, pos.column + 1⟩ ' '
    padLoop n ⟨pos.line, pos.column + 1⟩ b

/-- `src/buffer.rs:206-221`: put the character at the cursor and advance. -/
def placeChar (ch : Char) (width : Nat) (b : Buf) : Panics (Buf × WRes) :=
  match b.tryCursor with
  | .oob => some (b, .oob)
  | .ok => do
    let pos := b.cursor
    let b ← b.setCell pos ch
    let b ← padLoop (width - 1) pos b
    let col ← uadd b.cursor.column width
    if col ≥ b.size.columns then do
      let l ← uadd b.cursor.line 1
      pure ({ b with cursor := ⟨l, 0⟩ }, .ok)
    else
      pure ({ b with cursor := ⟨b.cursor.line, col⟩ }, .ok)

/-- `src/buffer.rs:167-224` `write_char` for every character except tab. -/
def writeCharNT (env : UEnv) (b : Buf) (ch : Char) : Panics (Buf × WRes) :=
  if ch = '\r' then some ({ b with cursor := ⟨b.cursor.line, 0⟩ }, .ok)
  else if ch = '\n' then do
    let l ← uadd b.cursor.line 1
    pure ({ b with cursor := ⟨l, 0⟩ }, .ok)
  else if env.combining ch then do
    match ← b.cursor.previous b.size with
    | some prev =>
      match b.tryCursorAt prev with
      | .oob => pure (b, .oob)
      | .ok => do
        let b ← b.modCell prev fun c => { c with text := c.text ++ [ch] }
        pure (b, .ok)
    | none => pure (b, .ok)
  else if isVisible env ch then
    match b.tryCursor with
    | .oob => some (b, .oob)
    | .ok => do
      let b ← b.tearPrev env
      let rem ← usub b.size.columns b.cursor.column
      let width := env.w ch
      if rem < width then
        match b.tryCursor with
        | .oob => some (b, .oob)
        | .ok => do
          let b ← fillLoop ch rem b.cursor b
          let l ← uadd b.cursor.line 1
          placeChar ch width { b with cursor := ⟨l, 0⟩ }
      else placeChar ch width b
  else some (b, .ok)

/-- `src/buffer.rs:164-166`: `n` rounds of `write_char(' ')?`. -/
def tabLoop (env : UEnv) : Nat → Buf → Panics (Buf × WRes)
  | 0, b => some (b, .ok)
  | n + 1, b => do
    let (b, r) ← b.writeCharNT env ' '
    match r with
    | .ok => tabLoop env n b
    | .oob => pure (b, .oob)

/-- `src/buffer.rs:158-225` `write_char`. -/
def writeChar (env : UEnv) (b : Buf) (ch : Char) : Panics (Buf × WRes) :=
  if ch = '\t' then
    match b.tryCursor with
    | .oob => some (b, .oob)
    | .ok => do
      let rem ← usub b.size.columns b.cursor.column
      tabLoop env (min rem (TAB_STOP - b.cursor.column % TAB_STOP)) b
  else b.writeCharNT env ch

/-- `src/buffer.rs:227-233` `write_str`. -/
def writeStr (env : UEnv) (b : Buf) : List Char → Panics (Buf × WRes)
  | [] => some (b, .ok)
  | ch :: s => do
    let (b, r) ← b.writeChar env ch
    match r with
    | .ok => writeStr env b s
    | .oob => pure (b, .oob)

/-- `src/buffer.rs:235-240` `write_at`. -/
def writeAt (env : UEnv) (b : Buf) (pos : Cursor) (text : List Char) : Panics (Buf × WRes) :=
  match b.tryCursorAt pos with
  | .oob => some (b, .oob)
  | .ok => ({ b with cursor := pos }).writeStr env text

/-- `src/buffer.rs:242-253` `write_styled`. -/
def writeStyled (env : UEnv) (b : Buf) (fg bg : Option Color) (style : Style) (text : List Char) :
    Panics (Buf × WRes) := do
  let (b, r) ← ({ b with fg := fg, bg := bg, style := style }).writeStr env text
  match r with
  | .ok => pure (b.clearAttributes, .ok)
  | .oob => pure (b, .oob)

/-- `src/buffer.rs:255-262` `write_styled_at`. -/
def writeStyledAt (env : UEnv) (b : Buf) (pos : Cursor) (fg bg : Option Color) (style : Style)
    (text : List Char) : Panics (Buf × WRes) :=
  match b.tryCursorAt pos with
  | .oob => some (b, .oob)
  | .ok => ({ b with cursor := pos }).writeStyled env fg bg style text

/-- `src/buffer.rs:104-106` and 110-133: `next_cell` on the range `idx .. idx + n`. Returns the new
buffer, the remaining range as `(next index, remaining length)` and the cell found. -/
def nextCell (env : UEnv) : Nat → Nat → Buf → Panics (Buf × (Nat × Nat) × Option (Cursor × Cell))
  | 0, idx, b => some (b, (idx, 0), none)
  | n + 1, idx, b => do
    let cell ← b.buffer[idx]?
    let first ← cell.firstChar
    -- after `indices.next()`: skip one more index if the cell is wide
    let k := if env.w first = 2 then min n 1 else 0
    let old ← b.back[idx]?
    if cell ≠ old then
      if b.size.columns = 0 then none
      else
        pure ({ b with back := b.back.set idx cell }, (idx + 1 + k, n - k),
          some (⟨idx / b.size.columns, idx % b.size.columns⟩, cell))
    else
      if k = 0 then nextCell env n (idx + 1) b
      else
        match n with
        | 0 => some (b, (idx + 1, 0), none)
        | n' + 1 => nextCell env n' (idx + 2) b

/-- Rust `chunks_mut(n)`: consecutive pieces of length `n` (the last may be shorter); `n = 0`
panics. `fuel` bounds the number of pieces (the length of the list suffices). (For `src/buffer.rs:529-530`.) -/
def chunks {α : Type} (n : Nat) : Nat → List α → List (List α)
  | 0, _ => []
  | _, [] => []
  | fuel + 1, x :: xs => (x :: xs).take n :: chunks n fuel ((x :: xs).drop n)

/-- `src/buffer.rs:531-533`: `for i in 0..n { swap(&mut new[i], &mut old[i]) }`, the resulting
`new`; a missing index panics. -/
def swapRow : Nat → List Cell → List Cell → Panics (List Cell)
  | 0, new, _ => some new
  | n + 1, _ :: new, y :: old => (swapRow n new old).map (y :: ·)
  | _ + 1, _, _ => none

/-- `src/buffer.rs:529-534`: rows zipped; rows of `new` beyond the shorter list are left. -/
def swapRows (n : Nat) : List (List Cell) → List (List Cell) → Panics (List (List Cell))
  | [], _ => some []
  | news, [] => some news
  | new :: news, old :: olds => do
    let r ← swapRow n new old
    let rs ← swapRows n news olds
    pure (r :: rs)

/-- `src/buffer.rs:522-539` `resize_buffer`. -/
def resizeBuffer (buf : List Cell) (old new : Size) : Panics (List Cell) :=
  if old = new then some buf
  else
    let newBuf := List.replicate new.area Cell.default
    if buf.isEmpty then some newBuf
    else if old.columns = 0 ∨ new.columns = 0 then none
    else
      (swapRows (min old.columns new.columns) (chunks new.columns newBuf.length newBuf)
        (chunks old.columns buf.length buf)).map List.flatten

/-- `src/buffer.rs:47-55` `resize` (with `new_buffer`, lines 541-544). -/
def resize (b : Buf) (newSize : Size) : Panics Buf := do
  let buf ← resizeBuffer b.buffer b.size newSize
  pure { b with buffer := buf, back := List.replicate newSize.area Cell.invalid, size := newSize }

end Buf

/-- One call of a screen's drawing API (`src/buffer.rs:281-466`, forwarded by `Screen` and
`ScreenWriteGuard`, which ignore `OutOfBounds`), or a resize (through `update_size`). -/
inductive BufOp
  | setCursor (pos : Cursor)
  | nextLine (column : Nat)
  | clearScreen
  | clearAttributes
  | addStyle (s : Style) | removeStyle (s : Style) | setStyle (s : Style)
  | setFg (c : Option Color) | setBg (c : Option Color) | setTheme (t : Theme)
  | writeChar (ch : Char)
  | writeStr (s : List Char)
  | writeAt (pos : Cursor) (s : List Char)
  | writeStyled (fg bg : Option Color) (style : Style) (s : List Char)
  | writeStyledAt (pos : Cursor) (fg bg : Option Color) (style : Style) (s : List Char)
  | resize (s : Size)

/-- The call's effect on the buffer. (`src/buffer.rs:23-538`.) -/
def BufOp.run (env : UEnv) (b : Buf) : BufOp → Panics Buf
  | .setCursor pos => some (b.setCursor pos)
  | .nextLine c => b.nextLine c
  | .clearScreen => some b.clearScreen
  | .clearAttributes => some b.clearAttributes
  | .addStyle s => some (b.addStyle s)
  | .removeStyle s => some (b.removeStyle s)
  | .setStyle s => some (b.setStyle s)
  | .setFg c => some (b.setFg c)
  | .setBg c => some (b.setBg c)
  | .setTheme t => some (b.setTheme t)
  | .writeChar ch => (b.writeChar env ch).map (·.1)
  | .writeStr s => (b.writeStr env s).map (·.1)
  | .writeAt pos s => (b.writeAt env pos s).map (·.1)
  | .writeStyled fg bg st s => (b.writeStyled env fg bg st s).map (·.1)
  | .writeStyledAt pos fg bg st s => (b.writeStyledAt env pos fg bg st s).map (·.1)
  | .resize s => b.resize s

/-- A history of calls. (`src/buffer.rs:23-538`.) -/
def runOps (env : UEnv) : List BufOp → Buf → Panics Buf
  | [], b => some b
  | op :: ops, b => (op.run env b).bind (runOps env ops)

end Mortal
