/-!
# Basic types of `src/terminal.rs`

`Panics α` is the result of Rust code that may panic: `none` is a panic.
-/

namespace Mortal

/-- Result of code that may panic; `none` models a panic (guide: "a panic path is an explicit
error value"). (For all code of the crate, e.g. `src/unix/terminal.rs:291-297`.) -/
abbrev Panics (α : Type) := Option α

/-- Largest `usize` on a 64-bit target (`usize::MAX`). (For e.g. `src/buffer.rs:185-260`.) -/
def usizeMax : Nat := 2 ^ 64 - 1

/-- `a + b` on `usize` with overflow checks (debug profile): overflow is a panic.
(For e.g. `src/buffer.rs:185-260`.) -/
def uadd (a b : Nat) : Panics Nat := if a + b ≤ usizeMax then some (a + b) else none

/-- `a - b` on `usize` with overflow checks (debug profile): underflow is a panic.
(For e.g. `src/buffer.rs:185-260`.) -/
def usub (a b : Nat) : Panics Nat := if b ≤ a then some (a - b) else none

/-- `src/terminal.rs:20-37` `Color`. -/
inductive Color
  | black | blue | cyan | green | magenta | red | white | yellow
deriving DecidableEq, Repr

/-- `src/terminal.rs:39-54` `Style` (bitflags over `u8`; bits outside the declared four can only be
made through `from_bits_retain`, they are kept here too). -/
abbrev Style := BitVec 8

namespace Style
/-- `src/terminal.rs:46`. -/
def BOLD : Style := 1#8
/-- `src/terminal.rs:48`. -/
def ITALIC : Style := 2#8
/-- `src/terminal.rs:50`. -/
def REVERSE : Style := 4#8
/-- `src/terminal.rs:52`. -/
def UNDERLINE : Style := 8#8
/-- bitflags `Style::empty()`. (For `src/terminal.rs:39-54`.) -/
def empty : Style := 0#8
/-- bitflags `contains`: `self & other == other`. (For `src/terminal.rs:39-54`.) -/
def contains (s o : Style) : Bool := (s &&& o) == o
/-- bitflags `intersects`: `self & other != 0`. (For `src/terminal.rs:39-54`.) -/
def intersects (s o : Style) : Bool := (s &&& o) != 0#8
/-- bitflags `is_empty`. (For `src/terminal.rs:39-54`.) -/
def isEmpty (s : Style) : Bool := s == 0#8
/-- bitflags `a - b` (`difference`): `a & !b`. (For `src/terminal.rs:39-54`.) -/
def diff (a b : Style) : Style := a &&& ~~~b
end Style

/-- `src/terminal.rs:60-67` `Theme`. -/
structure Theme where
  fg : Option Color
  bg : Option Color
  style : Style
deriving DecidableEq

/-- `src/terminal.rs:478-483` `Size`. -/
structure Size where
  lines : Nat
  columns : Nat
deriving DecidableEq, Repr

/-- `src/terminal.rs:476` "A valid size must not have zero lines or zero columns." -/
def Size.Valid (s : Size) : Prop := 0 < s.lines ∧ 0 < s.columns

/-- `src/terminal.rs:501-503` `Size::checked_area`. -/
def Size.checkedArea (s : Size) : Option Nat :=
  if s.lines * s.columns ≤ usizeMax then some (s.lines * s.columns) else none

/-- `src/terminal.rs:492-495` `Size::area`. The panic on overflow is `Size.checkedArea = none`;
the value is used here for sizes whose area fits (the buffer of that area has been allocated). -/
def Size.area (s : Size) : Nat := s.lines * s.columns

/-- `src/terminal.rs:112-117` `Cursor`. -/
structure Cursor where
  line : Nat
  column : Nat
deriving DecidableEq, Repr

namespace Cursor

/-- `src/terminal.rs:111` `Cursor::default()` (derived) -/
def default : Cursor := ⟨0, 0⟩

/-- `src/terminal.rs:124-138` `Cursor::next`. (`column + 1` and `line + 1` overflow only for
coordinates at `usize::MAX`, modelled as a panic.) -/
def next (c : Cursor) (size : Size) : Panics (Option Cursor) := do
  let column ← uadd c.column 1
  let (line, column) ←
    if column ≥ size.columns then do
      let l ← uadd c.line 1
      pure (l, 0)
    else pure (c.line, column)
  if line ≥ size.lines then pure none else pure (some ⟨line, column⟩)

/-- `src/terminal.rs:144-154` `Cursor::previous`; `size.columns - 1` underflows for zero columns. -/
def previous (c : Cursor) (size : Size) : Panics (Option Cursor) :=
  if c.column = 0 then
    if c.line = 0 then some none
    else do
      let col ← usub size.columns 1
      pure (some ⟨c.line - 1, col⟩)
  else some (some ⟨c.line, c.column - 1⟩)

/-- `src/terminal.rs:158-163` `Cursor::first`. -/
def first : Cursor := ⟨0, 0⟩

/-- `src/terminal.rs:167-172` `Cursor::last`. -/
def last (size : Size) : Panics Cursor := do
  let l ← usub size.lines 1
  let c ← usub size.columns 1
  pure ⟨l, c⟩

/-- `src/terminal.rs:176-178` `Cursor::is_out_of_bounds`. -/
def isOutOfBounds (c : Cursor) (size : Size) : Bool :=
  decide (c.line ≥ size.lines) || decide (c.column ≥ size.columns)

/-- `src/terminal.rs:182-184` `Cursor::as_index`. Overflow is not modelled: every caller has an
allocated buffer and a line inside it. -/
def asIndex (c : Cursor) (size : Size) : Nat := c.line * size.columns + c.column

end Cursor

/-- `src/signal.rs:9-26` `Signal`. -/
inductive Signal
  | «break» | «continue» | interrupt | resize | suspend | quit
deriving DecidableEq, Repr

/-- `src/terminal.rs:198-205` `CursorMode`. -/
inductive CursorMode
  | normal | invisible | overwrite
deriving DecidableEq, Repr

/-- `src/terminal.rs:239-286` `Key`. -/
inductive Key
  | backspace | enter | escape | tab | up | down | left | right
  | delete | insert | home | «end» | pageUp | pageDown
  | char (c : Char) | ctrl (c : Char) | f (n : Nat)
deriving DecidableEq, Repr

/-- `src/terminal.rs:336-345` `MouseButton`. -/
inductive MouseButton
  | left | right | middle | other (n : Nat)
deriving DecidableEq, Repr

/-- `src/terminal.rs:321-332` `MouseInput`. -/
inductive MouseInput
  | motion | buttonPressed (b : MouseButton) | buttonReleased (b : MouseButton)
  | wheelUp | wheelDown
deriving DecidableEq, Repr

/-- `src/terminal.rs:347-358` `ModifierState`: the three declared flags. (Values with other bits
are never built by this crate.) -/
structure ModifierState where
  alt : Bool := false
  ctrl : Bool := false
  shift : Bool := false
deriving DecidableEq, Repr

/-- `src/terminal.rs:305-317` `MouseEvent`. -/
structure MouseEvent where
  position : Cursor
  input : MouseInput
  modifiers : ModifierState
deriving DecidableEq, Repr

/-- `src/terminal.rs:209-235` `Event`. -/
inductive Event
  | key (k : Key) | mouse (m : MouseEvent) | raw (n : Nat) | resize (s : Size)
  | signal (s : Signal) | noEvent
deriving DecidableEq, Repr

end Mortal
