import Verif.Spec.Direct
import Verif.Spec.Input

/-!
# A terminal that reads bytes

The terminals of `Spec/Screen.lean` and `Spec/Direct.lean` are given commands and text as separate
items. This one reads bytes, as xterm does: text in UTF-8, control characters, and the control
sequences of ECMA-48 with xterm's private modes (`XTerm Control Sequences`, the parts a terminfo entry
for xterm refers to). It knows nothing of terminfo. It is a total function: sequences it does not know
are skipped. It has two buffers, margins, and a cursor that waits behind the last column.
-/

namespace Mortal.Spec

/-- Where the reader of bytes is: between characters, inside a character, after ESC, after ESC `(`, or
after ESC `[` and the given parameter bytes. -/
inductive PState
  | ground
  | utf8 (got : Bytes)
  | esc
  | charset
  | csi (body : Bytes)
deriving DecidableEq

/-- A terminal. `t` is the buffer in use, with cursor and attributes; `t.cur` is never `none`. `wrap`:
the last column was written and the next character goes to the next line. `other` is the buffer not in
use, `alt` tells which one is. `saved` is what DECSC saves: position, wrap, attributes. -/
structure Vt where
  t : Term
  wrap : Bool
  other : Cursor → TCell
  alt : Bool
  saved : Cursor × Bool × DevAttrs
  top : Nat
  bottom : Nat
  visible : Bool
  keypad : Bool
  mode : Nat → Bool
  ps : PState

/-- The cursor. -/
def Vt.pos (v : Vt) : Cursor := v.t.cur.getD ⟨0, 0⟩

/-- Attributes of erased cells: those in effect on terminals with `bce`, else none. -/
def Vt.fill (v : Vt) (d : DevAttrs) : DevAttrs := if v.t.bce then d else .plain

/-- Set the cursor. -/
def Vt.goto (v : Vt) (p : Cursor) : Vt := { v with t := v.t.goto p, wrap := false }

/-- Index: to the next line; at the bottom margin the lines between the margins scroll. -/
def Vt.index (v : Vt) : Vt :=
  let p := v.pos
  if p.line = v.bottom then
    { v with
      wrap := false
      t := { v.t.goto p with
        cell := fun q =>
          if v.top ≤ q.line ∧ q.line < v.bottom then v.t.cell ⟨q.line + 1, q.column⟩
          else if q.line = v.bottom then .narrow [' '] (v.fill v.t.attrs)
          else v.t.cell q } }
  else v.goto ⟨min (p.line + 1) (v.t.size.lines - 1), p.column⟩

/-- Carriage return. -/
def Vt.cr (v : Vt) : Vt := v.goto ⟨v.pos.line, 0⟩

/-- A character with a width: it is written at the cursor, on the next line if this one is full. -/
def Vt.putWide (v : Vt) (ch : Char) (wide : Bool) : Vt :=
  let p := v.pos
  let n := if wide then 2 else 1
  let q : Cursor := ⟨p.line, p.column + 1⟩
  let t := if wide then (((v.t.cut p).cut q).set p (.left [ch] v.t.attrs)).set q .right
    else (v.t.cut p).set p (.narrow [ch] v.t.attrs)
  if p.column + n < v.t.size.columns then
    { v with t := { t with cur := some ⟨p.line, p.column + n⟩, last := some p }, wrap := false }
  else
    { v with t := { t with cur := some ⟨p.line, v.t.size.columns - 1⟩, last := some p }, wrap := true }

/-- A mark joins the character written just before. -/
def Vt.join (v : Vt) (ch : Char) : Vt :=
  match v.t.last with
  | none => v
  | some p =>
    match v.t.cell p with
    | .narrow x d => { v with t := v.t.set p (.narrow (x ++ [ch]) d) }
    | .left x d => { v with t := v.t.set p (.left (x ++ [ch]) d) }
    | _ => v

/-- A printable character. -/
def Vt.print (u : UEnv) (v : Vt) (ch : Char) : Vt :=
  if u.w ch = 0 then v.join ch
  else
    let wide : Bool := decide (2 ≤ u.w ch)
    let full := v.wrap || (wide && decide (v.t.size.columns < v.pos.column + 2))
    (if full then v.cr.index else v).putWide ch wide

/-- A control character. `onlcr`: the terminal's line discipline sends CR LF for LF. -/
def Vt.control (onlcr : Bool) (v : Vt) (ch : Char) : Vt :=
  if ch = '\r' then v.cr
  else if ch = '\n' then (if onlcr then v.cr.index else v.index)
  else if ch.toNat = 8 then v.goto ⟨v.pos.line, v.pos.column - 1⟩
  else if ch.toNat = 9 then v.goto ⟨v.pos.line, min ((v.pos.column / 8 + 1) * 8) (v.t.size.columns - 1)⟩
  else v

/-- A character arrives. -/
def Vt.char (u : UEnv) (onlcr : Bool) (v : Vt) (ch : Char) : Vt :=
  if Control ch then v.control onlcr ch else v.print u ch

/-- One more parameter byte, after the numbers read so far, the last one first. -/
def csiNext (l : List Nat) (b : UInt8) : List Nat :=
  if b = 59 then 0 :: l
  else match l with
    | x :: r => (10 * x + (b.toNat - 48)) :: r
    | [] => []

/-- The numbers between semicolons; 0 for those left out. -/
def csiParams (body : Bytes) : List Nat := (body.foldl csiNext [0]).reverse

/-- The `i`-th number, with a default for 0 and for numbers left out. -/
def csiArg (ps : List Nat) (i d : Nat) : Nat :=
  match ps[i]? with
  | none | some 0 => d
  | some n => n

/-- Select graphic rendition. -/
def sgr : List Nat → DevAttrs → DevAttrs
  | [], a => a
  | 38 :: 5 :: n :: l, a => sgr l { a with fg := some n }
  | 48 :: 5 :: n :: l, a => sgr l { a with bg := some n }
  | n :: l, a => sgr l
    (if n = 0 then .plain
     else if n = 1 then { a with bold := true }
     else if n = 3 then { a with italic := true }
     else if n = 4 then { a with underline := true }
     else if n = 7 then { a with reverse := true }
     else if n = 22 then { a with bold := false }
     else if n = 23 then { a with italic := false }
     else if n = 24 then { a with underline := false }
     else if n = 27 then { a with reverse := false }
     else if 30 ≤ n ∧ n ≤ 37 then { a with fg := some (n - 30) }
     else if n = 39 then { a with fg := none }
     else if 40 ≤ n ∧ n ≤ 47 then { a with bg := some (n - 40) }
     else if n = 49 then { a with bg := none }
     else if 90 ≤ n ∧ n ≤ 97 then { a with fg := some (n - 82) }
     else if 100 ≤ n ∧ n ≤ 107 then { a with bg := some (n - 92) }
     else a)

/-- Mode 1049 set: save the cursor, and use the alternate buffer, cleared. -/
def Vt.toAlternate (v : Vt) : Vt :=
  let v := { v with saved := (v.pos, v.wrap, v.t.attrs) }
  if v.alt then v
  else { v with
    alt := true
    other := v.t.cell
    t := { v.t with cell := fun _ => .narrow [' '] (v.fill v.t.attrs), last := none } }

/-- Mode 1049 reset: use the normal buffer, and restore the cursor (inside the window, which may have
become smaller). -/
def Vt.fromAlternate (v : Vt) : Vt :=
  let v := if v.alt then { v with
      alt := false
      other := v.t.cell
      t := { v.t with cell := v.other } }
    else v
  { v with
    wrap := v.saved.2.1
    t := { v.t with
      cur := some ⟨min v.saved.1.line (v.t.size.lines - 1), min v.saved.1.column (v.t.size.columns - 1)⟩
      last := none
      attrs := v.saved.2.2 } }

/-- DEC private modes: 25 is the cursor's visibility. -/
def Vt.setMode (on : Bool) (v : Vt) (n : Nat) : Vt :=
  if n = 25 then { v with visible := on }
  else if n = 1049 then (if on then v.toAlternate else v.fromAlternate)
  else { v with mode := fun m => if m = n then on else v.mode m }

/-- Erase the cells of `R`. -/
def Vt.erase (v : Vt) (R : Cursor → Prop) [DecidablePred R] : Vt :=
  { v with t := v.t.erase R (v.fill v.t.attrs) }

/-- The beginning of a line, up to and including `p`. -/
def StartOfLine (p q : Cursor) : Prop := q.line = p.line ∧ q.column ≤ p.column

instance (p : Cursor) : DecidablePred (StartOfLine p) := fun q => by
  unfold StartOfLine; infer_instance

/-- Cursor up, down, right, left (not past the margins and edges), cursor position, erase in display,
erase in line, select graphic rendition, set top and bottom margin. -/
def Vt.ansi (v : Vt) (ps : List Nat) (final : Nat) : Vt :=
  let p := v.pos
  let n := csiArg ps 0 1
  if final = 0x41 then v.goto ⟨max (p.line - n) (if v.top ≤ p.line then v.top else 0), p.column⟩
  else if final = 0x42 then
    v.goto ⟨min (p.line + n)
      (if p.line ≤ v.bottom then min v.bottom (v.t.size.lines - 1) else v.t.size.lines - 1), p.column⟩
  else if final = 0x43 then v.goto ⟨p.line, min (p.column + n) (v.t.size.columns - 1)⟩
  else if final = 0x44 then v.goto ⟨p.line, p.column - n⟩
  else if final = 0x48 then
    v.goto ⟨min (n - 1) (v.t.size.lines - 1), min (csiArg ps 1 1 - 1) (v.t.size.columns - 1)⟩
  else if final = 0x4a then
    match csiArg ps 0 0 with
    | 0 => v.erase (RestOfScreen p)
    | 1 => v.erase fun q => q.line < p.line ∨ StartOfLine p q
    | 2 => v.erase fun _ => True
    | _ => v
  else if final = 0x4b then
    match csiArg ps 0 0 with
    | 0 => v.erase (RestOfLine p)
    | 1 => v.erase (StartOfLine p)
    | 2 => v.erase fun q => q.line = p.line
    | _ => v
  else if final = 0x6d then { v with t := { v.t with attrs := sgr ps v.t.attrs } }
  else if final = 0x72 then
    let bottom := csiArg ps 1 v.t.size.lines
    if n < bottom ∧ bottom ≤ v.t.size.lines then
      ({ v with top := n - 1, bottom := bottom - 1 } : Vt).goto ⟨0, 0⟩
    else v
  else v

/-- A control sequence: `?` introduces private modes. -/
def Vt.dispatch (v : Vt) (body : Bytes) (final : Nat) : Vt :=
  match body with
  | 63 :: rest =>
    if final = 0x68 then (csiParams rest).foldl (Vt.setMode true) v
    else if final = 0x6c then (csiParams rest).foldl (Vt.setMode false) v
    else v
  | _ => v.ansi (csiParams body) final

/-- Another byte of a character. -/
def Vt.collect (u : UEnv) (onlcr : Bool) (v : Vt) (bs : Bytes) : Vt :=
  match decodeOne bs with
  | .char ch _ => ({ v with ps := .ground } : Vt).char u onlcr ch
  | .incomplete => { v with ps := .utf8 bs }
  | .invalid => ({ v with ps := .ground } : Vt).char u onlcr (Char.ofNat 0xFFFD)

/-- A byte arrives. -/
def Vt.byte (u : UEnv) (onlcr : Bool) (v : Vt) (b : UInt8) : Vt :=
  match v.ps with
  | .ground => if b = 0x1b then { v with ps := .esc } else v.collect u onlcr [b]
  | .utf8 got => v.collect u onlcr (got ++ [b])
  | .esc =>
    if b = 0x5b then { v with ps := .csi [] }
    else if b = 0x28 then { v with ps := .charset }
    else if b = 0x3d then { v with ps := .ground, keypad := true }
    else if b = 0x3e then { v with ps := .ground, keypad := false }
    else { v with ps := .ground }
  | .charset => { v with ps := .ground }
  | .csi body =>
    if 0x20 ≤ b.toNat ∧ b.toNat ≤ 0x3f then { v with ps := .csi (body ++ [b]) }
    else ({ v with ps := .ground } : Vt).dispatch body b.toNat

/-- Bytes arrive. -/
def Vt.feed (u : UEnv) (onlcr : Bool) (v : Vt) (bs : Bytes) : Vt := bs.foldl (Vt.byte u onlcr) v

/-! ## The terminfo entry of xterm -/

/-- ASCII text. -/
def asc (s : String) : Bytes := s.toList.map fun c => UInt8.ofNat c.toNat

/-- ESC `[` and a text. -/
def esc (s : String) : Bytes := 0x1b :: 0x5b :: asc s

/-- `setaf` and `setab` of xterm-256color; the base is 3 or 4, for bright colours 9 or 10. -/
def xtermColor (base bright : Nat) (n : Nat) : Bytes :=
  0x1b :: 0x5b :: (if n < 8 then decimal base ++ decimal n
    else if n < 16 then decimal bright ++ decimal (n - 8)
    else decimal base ++ asc "8;5;" ++ decimal n) ++ asc "m"

/-- The strings of the entry `xterm-256color` of ncurses, expanded (`%d` as decimal notation; `%i` adds
one to the first two parameters). -/
def xtermString : Cap → List Nat → Bytes
  | .exitAttributeMode, _ => 0x1b :: asc "(B" ++ esc "m"
  | .enterBold, _ => esc "1m"
  | .enterItalics, _ => esc "3m"
  | .enterReverse, _ => esc "7m"
  | .enterUnderline, _ => esc "4m"
  | .exitItalics, _ => esc "23m"
  | .exitUnderline, _ => esc "24m"
  | .setAForeground, ps => xtermColor 3 9 (ps.getD 0 0)
  | .setABackground, ps => xtermColor 4 10 (ps.getD 0 0)
  | .clearScreen, _ => esc "H" ++ esc "2J"
  | .clrEol, _ => esc "K"
  | .clrEos, _ => esc "J"
  | .cursorUp, _ => esc "A"
  | .parmUp, ps => 0x1b :: 0x5b :: decimal (ps.getD 0 0) ++ asc "A"
  | .parmDown, ps => 0x1b :: 0x5b :: decimal (ps.getD 0 0) ++ asc "B"
  | .cursorLeft, _ => [8]
  | .parmLeft, ps => 0x1b :: 0x5b :: decimal (ps.getD 0 0) ++ asc "D"
  | .cursorRight, _ => esc "C"
  | .parmRight, ps => 0x1b :: 0x5b :: decimal (ps.getD 0 0) ++ asc "C"
  | .cursorAddress, ps =>
    0x1b :: 0x5b :: decimal (ps.getD 0 0 + 1) ++ asc ";" ++ decimal (ps.getD 1 0 + 1) ++ asc "H"
  | .cursorHome, _ => esc "H"
  | .cursorNormal, _ => esc "?12l" ++ esc "?25h"
  | .cursorInvisible, _ => esc "?25l"
  | .keypadXmit, _ => esc "?1h" ++ 0x1b :: asc "="
  | .keypadLocal, _ => esc "?1l" ++ 0x1b :: asc ">"
  | .enterCaMode, _ => esc "?1049h" ++ esc "22;0;0t"
  | .exitCaMode, _ => esc "?1049l" ++ esc "23;0;0t"
  | .changeScrollRegion, ps =>
    0x1b :: 0x5b :: decimal (ps.getD 0 0 + 1) ++ asc ";" ++ decimal (ps.getD 1 0 + 1) ++ asc "r"

/-- The database of an xterm. -/
def xtermDB : WEnv where
  db c := some fun ps => (xtermString c ps, true)
  grow old len := max (2 * old) len

/-! ## What is shown -/

/-- A terminal ready for use: the size is not zero, the cursor is on the screen, and no sequence or
character has been begun. -/
structure Vt.Ready (v : Vt) : Prop where
  size : GoodSize v.t.size
  cur : ∃ p, v.t.cur = some p ∧ InBounds p v.t.size
  last : ∀ p, v.t.last = some p → InBounds p v.t.size
  ground : v.ps = .ground

/-- The margins are the edges of the screen. -/
def Vt.FullMargins (v : Vt) : Prop := v.top = 0 ∧ v.bottom = v.t.size.lines - 1

/-- The terminal shows the page (compare `Emu.Shows`). Where the page leaves open what is left of a
torn character, anything but a half of a two-column character will do; where it leaves open where the
cursor is, it may be anywhere. -/
structure Vt.Shows (v : Vt) (p : Page) : Prop where
  size : v.t.size = p.grid.size
  cell : ∀ q, InBounds q v.t.size → v.t.cell q = (p.grid.cell q).map (Ink.unix v.fill) ∨
    (p.grid.cell q = .torn ∧ v.t.cell q ≠ .right ∧ ∀ x d, v.t.cell q ≠ .left x d)
  cur : ∀ c, p.grid.cur = some c → v.pos = c ∧ v.wrap = false
  last : ∀ c, p.grid.last = some c → v.t.last = some c
  attrs : v.t.attrs = p.grid.attrs.unix v.fill
  visible : v.visible = p.visible

end Mortal.Spec
