import Verif.Model.Types
import Verif.Model.Util
import Verif.Model.SignalSet

/-!
# `src/windows/terminal.rs`: the functions that do not call the console

`WORD` is `BitVec 16`, `DWORD` is `BitVec 32`, `SHORT` is an `Int` between -32768 and 32767. The
constants are those of the crate winapi (not in /repo).
-/

namespace Mortal

/-! ## Coordinates -/

/-- `COORD`. (For `src/windows/terminal.rs:1098-1124`.) -/
structure Coord where
  x : Int
  y : Int
deriving DecidableEq, Repr

/-- The values of `SHORT`. (For `src/windows/terminal.rs:1146-1166`.) -/
def IsShort (n : Int) : Prop := -32768 ≤ n ∧ n ≤ 32767

/-- For `src/windows/terminal.rs:1146-1166`. -/
instance (n : Int) : Decidable (IsShort n) := by unfold IsShort; infer_instance

/-- `SHORT` arithmetic with overflow checks (debug profile).
(For `src/windows/terminal.rs:642-643`, 696-708.) -/
def short (n : Int) : Panics Int := if IsShort n then some n else none

/-- `i16::saturating_add`. (For `src/windows/terminal.rs:909-910`.) -/
def shortSatAdd (a b : Int) : Int :=
  if a + b > 32767 then 32767 else if a + b < -32768 then -32768 else a + b

/-- `src/windows/terminal.rs:1138-1144` `to_dword`. -/
def toDword (n : Nat) : BitVec 32 := if n > 4294967295 then 4294967295#32 else BitVec.ofNat 32 n

/-- `src/windows/terminal.rs:1146-1152` `to_short`. -/
def toShort (n : Nat) : Int := if n > 32767 then 32767 else n

/-- `src/windows/terminal.rs:1154-1166` `to_short_neg`. -/
def toShortNeg (n : Nat) : Int :=
  let m : Int := if n > 9223372036854775807 then -9223372036854775808 else -(n : Int)
  if m < -32768 then -32768 else m

/-- `SHORT as usize` (sign extension). (For `src/windows/terminal.rs:1098-1110`.) -/
def shortToUsize (n : Int) : Nat := (n % 18446744073709551616).toNat

/-- `SHORT as DWORD` (sign extension). (For `src/windows/terminal.rs:631`, 696-708.) -/
def shortToDword (n : Int) : BitVec 32 := BitVec.ofInt 32 n

/-- `src/windows/terminal.rs:1098-1103` `coord_to_cursor`. -/
def coordToCursor (p : Coord) : Cursor := ⟨shortToUsize p.y, shortToUsize p.x⟩

/-- `src/windows/terminal.rs:1105-1110` `coord_to_size`. -/
def coordToSize (p : Coord) : Size := ⟨shortToUsize p.y, shortToUsize p.x⟩

/-- `src/windows/terminal.rs:1112-1117` `cursor_to_coord`. -/
def cursorToCoord (c : Cursor) : Coord := ⟨toShort c.column, toShort c.line⟩

/-- `src/windows/terminal.rs:1119-1124` `size_to_coord`. -/
def sizeToCoord (s : Size) : Coord := ⟨toShort s.columns, toShort s.lines⟩

/-- `src/windows/terminal.rs:908-911`: the destination computed by `move_rel`. -/
def moveRelDest (size cursor off : Coord) : Panics Coord := do
  let mx ← short (size.x - 1)
  let my ← short (size.y - 1)
  pure ⟨min (shortSatAdd cursor.x off.x) mx, min (shortSatAdd cursor.y off.y) my⟩

/-- `src/windows/terminal.rs:693-696`: the number of cells `clear_to_line_end` clears. -/
def lineEndCount (size start : Coord) : Panics (BitVec 32) := do
  let d ← short (size.x - start.x)
  pure (shortToDword d)

/-- `u32` arithmetic with overflow checks (debug profile). (For `src/windows/terminal.rs:631`, 708.) -/
def dword (n : Nat) : Panics (BitVec 32) := if n < 4294967296 then some (BitVec.ofNat 32 n) else none

/-- `src/windows/terminal.rs:702-708`: the number of cells `clear_to_screen_end` clears. -/
def screenEndCount (size start : Coord) : Panics (BitVec 32) := do
  let lines ← short (size.y - start.y)
  let columns ← short (size.x - start.x)
  let m ← dword ((shortToDword lines).toNat * (shortToDword size.x).toNat)
  dword (m.toNat + (shortToDword columns).toNat)

/-! ## The attribute word -/

/-- `src/windows/terminal.rs:945-956` `fg_code` (`FOREGROUND_BLUE` 1, `GREEN` 2, `RED` 4). -/
def winFgCode : Color → BitVec 16
  | .black => 0 | .blue => 1 | .cyan => 1 ||| 2 | .green => 2
  | .magenta => 1 ||| 4 | .red => 4 | .white => 4 ||| 2 ||| 1 | .yellow => 4 ||| 2

/-- `src/windows/terminal.rs:958-969` `bg_code` (`BACKGROUND_BLUE` 0x10, `GREEN` 0x20, `RED` 0x40). -/
def winBgCode : Color → BitVec 16
  | .black => 0 | .blue => 0x10 | .cyan => 0x10 ||| 0x20 | .green => 0x20
  | .magenta => 0x10 ||| 0x40 | .red => 0x40 | .white => 0x40 ||| 0x20 ||| 0x10
  | .yellow => 0x40 ||| 0x20

/-- `src/windows/terminal.rs:971-980` `style_code` (`FOREGROUND_INTENSITY` 8). -/
def styleCode (s : Style) : BitVec 16 := if s.contains .BOLD then 0 ||| 8 else 0

/-- `u16::trailing_zeros`, for the two masks: the number of trailing zeros among the lowest `n`
bits. (For `src/windows/terminal.rs:986-987`.) -/
def trailingZeros (w : BitVec 16) : Nat → Nat
  | 0 => 0
  | n + 1 => if w.getLsbD (16 - (n + 1)) then 0 else 1 + trailingZeros w n

/-- `src/windows/terminal.rs:982-997` `swap_colors`. -/
def swapColors (code : BitVec 16) : BitVec 16 :=
  let fgMask := winFgCode .white
  let bgMask := winBgCode .white
  let shift := trailingZeros bgMask 16 - trailingZeros fgMask 16
  let fg := code &&& fgMask
  let bg := code &&& bgMask
  (code &&& ~~~(fgMask ||| bgMask)) ||| (fg <<< shift) ||| (bg >>> shift)

/-- `src/windows/terminal.rs:821-838` `update_attrs`: the word it sets. -/
def attrWord (default : BitVec 16) (fg bg : Option Color) (style : Style) : BitVec 16 :=
  let a := default
  let a := match fg with
    | some c => (a &&& ~~~(winFgCode .white)) ||| winFgCode c
    | none => a
  let a := match bg with
    | some c => (a &&& ~~~(winBgCode .white)) ||| winBgCode c
    | none => a
  let a := a ||| styleCode style
  if style.contains .REVERSE then swapColors a else a

/-! ## UTF-16 -/

/-- `char::encode_utf16` (what `OsStr::encode_wide` yields for a `str`, character by character;
`src/windows/terminal.rs:849`). -/
def encodeUtf16 (c : Char) : List (BitVec 16) :=
  if c.toNat < 0x10000 then [BitVec.ofNat 16 c.toNat]
  else [BitVec.ofNat 16 (0xD800 + (c.toNat - 0x10000) / 0x400),
    BitVec.ofNat 16 (0xDC00 + (c.toNat - 0x10000) % 0x400)]

/-! ## Input records -/

/-- `MOUSE_EVENT_RECORD`. (For `src/windows/terminal.rs:517-570`.) -/
structure MouseRec where
  pos : Coord
  buttons : BitVec 32
  keys : BitVec 32
  flags : BitVec 32
deriving DecidableEq

/-- `KEY_EVENT_RECORD`: the fields the code reads. (For `src/windows/terminal.rs:1168-1228`.) -/
structure KeyRec where
  down : Bool
  vk : BitVec 16
  uchar : BitVec 16
  keys : BitVec 32
deriving DecidableEq

/-- `INPUT_RECORD`. (For `src/windows/terminal.rs:441-464`.) -/
inductive InRec
  | key (k : KeyRec) | mouse (m : MouseRec) | size (s : Coord) | other
deriving DecidableEq

/-- `src/windows/terminal.rs:1126-1128` `has_alt` (`RIGHT_ALT_PRESSED` 1, `LEFT_ALT_PRESSED` 2). -/
def hasAlt (k : BitVec 32) : Bool := (k &&& (2 ||| 1)) != 0
/-- `src/windows/terminal.rs:1130-1132` `has_ctrl` (`RIGHT_CTRL_PRESSED` 4, `LEFT_CTRL_PRESSED` 8). -/
def hasCtrl (k : BitVec 32) : Bool := (k &&& (8 ||| 4)) != 0
/-- `src/windows/terminal.rs:1134-1136` `has_shift` (`SHIFT_PRESSED` 0x10). -/
def hasShift (k : BitVec 32) : Bool := (k &&& 0x10) != 0

/-- `src/windows/terminal.rs:1088-1091`: the loop of `bit_to_button`, with a bound on its rounds;
`none` if it is not left within them. -/
def bitLoop : Nat → BitVec 32 → Nat → Option Nat
  | 0, _, _ => none
  | f + 1, bit, n => if bit ≠ 1 then bitLoop f (bit >>> 1) (n + 1) else some n

/-- `src/windows/terminal.rs:1077-1096` `bit_to_button`: `none` if it fails its assertion or does
not return (`FROM_LEFT_1ST_BUTTON_PRESSED` 1, `RIGHTMOST_BUTTON_PRESSED` 2,
`FROM_LEFT_2ND_BUTTON_PRESSED` 4). -/
def bitToButton (bit : BitVec 32) : Option MouseButton :=
  if bit = 0 then none
  else if bit = 1 then some .left
  else if bit = 2 then some .right
  else if bit = 4 then some .middle
  else (bitLoop 64 (bit >>> 3) 3).map .other

/-- `src/windows/terminal.rs:1051-1075` `button_changed`, from bit `32 - n` on; the outer `none` is
that of `bit_to_button`. -/
def buttonChanged (prev now : BitVec 32) : Nat → Panics (Option MouseInput)
  | 0 => some none
  | n + 1 =>
    let bit : BitVec 32 := 1#32 <<< (32 - (n + 1))
    if (prev ^^^ now) &&& bit ≠ 0 then
      (bitToButton bit).map fun b =>
        some (if prev &&& bit = 0 then .buttonPressed b else .buttonReleased b)
    else buttonChanged prev now n

/-- `src/windows/terminal.rs:92-95` `Reader`. -/
structure WReader where
  track : Bool
  prev : BitVec 32
deriving DecidableEq

/-- `src/windows/terminal.rs:521-545`: the input of a record, and the reader's new state
(`MOUSE_WHEELED` 4). -/
def winMouseInput (r : WReader) (m : MouseRec) : Panics (Option MouseInput × WReader) :=
  if m.flags &&& 4 ≠ 0 then
    let direction := ((m.buttons >>> 16).truncate 16).toInt
    some (some (if direction > 0 then .wheelUp else .wheelDown), r)
  else
    let r' := { r with prev := m.buttons }
    if r.prev = m.buttons then
      if m.buttons = 0 ∧ r.track = false then some (none, r') else some (some .motion, r')
    else (buttonChanged r.prev m.buttons 32).map fun i => (i, r')

/-- `src/windows/terminal.rs:517-569` `mouse_event`. -/
def winMouseEvent (r : WReader) : InRec → Panics (Option MouseEvent × WReader)
  | .mouse m => (winMouseInput r m).map fun (i, r') =>
    (i.map fun i => ⟨coordToCursor m.pos, i, ⟨hasAlt m.keys, hasCtrl m.keys, hasShift m.keys⟩⟩, r')
  | _ => some (none, r)

/-- `src/windows/terminal.rs:1177-1202`: the virtual key codes (`winuser::VK_*`). -/
def vkKey (vk : Nat) : Option Key :=
  match vk with
  | 0x08 => some .backspace | 0x0D => some .enter | 0x1B => some .escape | 0x09 => some .tab
  | 0x26 => some .up | 0x28 => some .down | 0x25 => some .left | 0x27 => some .right
  | 0x2E => some .delete | 0x2D => some .insert | 0x24 => some .home | 0x23 => some .end
  | 0x21 => some .pageUp | 0x22 => some .pageDown
  | 0x70 => some (.f 1) | 0x71 => some (.f 2) | 0x72 => some (.f 3) | 0x73 => some (.f 4)
  | 0x74 => some (.f 5) | 0x75 => some (.f 6) | 0x76 => some (.f 7) | 0x77 => some (.f 8)
  | 0x78 => some (.f 9) | 0x79 => some (.f 10) | 0x7A => some (.f 11) | 0x7B => some (.f 12)
  | _ => none

/-- `char::from_u32`. (For `src/windows/terminal.rs:1213`.) -/
def charFromU32 (n : Nat) : Option Char := if h : n.isValidChar then some (Char.ofNatAux n h) else none

/-- `src/windows/terminal.rs:1168-1228` `key_press_event`. -/
def keyPressEvent : InRec → Option Key
  | .key k =>
    if k.down = false then none
    else
      match vkKey k.vk.toNat with
      | some key => some key
      | none =>
        if hasAlt k.keys then none
        else if k.uchar ≠ 0 then
          match charFromU32 k.uchar.toNat with
          | some ch => if hasCtrl k.keys then some (.ctrl (unctrlLower ch)) else some (Key.ofChar ch)
          | none => none
        else none
  | _ => none

/-- `src/windows/terminal.rs:1230-1241` `size_event`. -/
def sizeEvent : InRec → Option Size
  | .size s => some ⟨shortToUsize s.y, shortToUsize s.x⟩
  | _ => none

/-- `src/windows/terminal.rs:454-462`: what `read_event` makes of a record. -/
def recordEvent (r : WReader) (e : InRec) : Panics (Event × WReader) :=
  match keyPressEvent e with
  | some k => some (.key k, r)
  | none =>
    match winMouseEvent r e with
    | none => none
    | some (some m, r') => some (.mouse m, r')
    | some (none, r') =>
      match sizeEvent e with
      | some s => some (.resize s, r')
      | none => some (.noEvent, r')

end Mortal
