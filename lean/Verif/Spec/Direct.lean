import Verif.Spec.WinErase
import Verif.Spec.WinAttr

/-!
# What a program that writes to a terminal asks for

The calls of a terminal's write guard, independently of the platform, and the page that should be
seen after them. A page has a grid of cells like a terminal, but a cell is marked by what the program
asked for: the theme in force when the character was written, or when the cell was erased.
-/

namespace Mortal.Spec

deriving instance DecidableEq for Dir

/-- The methods of `TerminalWriteGuard` (`src/terminal.rs:870-1117`), on any platform. `release` is the
drop of the guard. -/
inductive TOp
  | fg (c : Option Color) | bg (c : Option Color)
  | addStyle (s : Style) | removeStyle (s : Style) | style (s : Style)
  | theme (t : Theme) | clearAttributes
  | write (text : List Char)
  | styled (t : Theme) (text : List Char)
  | clearScreen | clearToLineEnd | clearToScreenEnd
  | move (d : Dir) (n : Nat) | firstColumn | moveTo (p : Cursor)
  | cursorMode (m : CursorMode)
  | flush | release
deriving DecidableEq

/-- How a cell got its contents: a character was written, it was erased, or its line scrolled in. -/
inductive Way
  | written | erased | scrolled
deriving DecidableEq

/-- What a cell was given, and the theme then in force. -/
structure Ink where
  theme : Theme
  way : Way := .written
deriving DecidableEq

/-- A page. `grid.attrs` is for the next character. -/
structure Page where
  grid : Term Ink
  visible : Bool

/-- The cells of `R` become blanks with attributes `d`; what is left of two-column characters is
torn. -/
def Term.erase {A : Type} (R : Cursor → Prop) [DecidablePred R] (d : A) (t : Term A) : Term A :=
  { t with
    cell := fun q =>
      if R q then .narrow [' '] d
      else match t.cell q with
        | .left x a => if R ⟨q.line, q.column + 1⟩ then .torn else .left x a
        | .right => if R ⟨q.line, q.column - 1⟩ then .torn else .right
        | c => c }

instance (p : Cursor) : DecidablePred (RestOfLine p) := fun q => by
  unfold RestOfLine; infer_instance
instance (p : Cursor) : DecidablePred (RestOfScreen p) := fun q => by
  unfold RestOfScreen; infer_instance

/-- Move the cursor; not past the edge. -/
def Term.shifted {A : Type} (t : Term A) (p : Cursor) : Dir → Nat → Cursor
  | .up, n => ⟨p.line - n, p.column⟩
  | .down, n => ⟨min (p.line + n) (t.size.lines - 1), p.column⟩
  | .left, n => ⟨p.line, p.column - n⟩
  | .right, n => ⟨p.line, min (p.column + n) (t.size.columns - 1)⟩

/-- A character arrives; carriage return and line feed too. -/
def Term.typed {A : Type} (u : UEnv) (crlf : Bool) (fill : A → A) (t : Term A) (ch : Char) :
    Option (Term A) :=
  if ch = '\r' then t.cur.map fun p => t.goto ⟨p.line, 0⟩
  else if ch = '\n' then t.cur.map fun p => t.newline crlf (fill t.attrs) p
  else t.putChar u ch

/-- Text arrives. -/
def Term.typeText {A : Type} (u : UEnv) (crlf : Bool) (fill : A → A) :
    List Char → Term A → Option (Term A)
  | [], t => some t
  | ch :: s, t => (t.typed u crlf fill ch).bind (typeText u crlf fill s)

/-! ## The page asked for -/

/-- The theme asked for by a call. -/
def TOp.wants (t : Theme) : TOp → Theme
  | .fg c => { t with fg := c }
  | .bg c => { t with bg := c }
  | .addStyle s => { t with style := t.style ||| s }
  | .removeStyle s => { t with style := t.style &&& ~~~s }
  | .style s => { t with style := s }
  | .theme t' => t'
  | .clearAttributes => plainTheme
  | _ => t

/-- What erasing leaves. -/
def Ink.wiped (i : Ink) : Ink := { i with way := .erased }

/-- What scrolling brings in. -/
def Ink.rolled (i : Ink) : Ink := { i with way := .scrolled }

/-- The theme of the next character. -/
def Page.paint (t : Theme) (p : Page) : Page := { p with grid := { p.grid with attrs := { theme := t } } }

/-- Text is written on a page. -/
def Page.put (u : UEnv) (crlf : Bool) (s : List Char) (p : Page) : Option Page :=
  (p.grid.typeText u crlf Ink.rolled s).map fun g => { p with grid := g }

/-- The page after a call that returned `Ok`. No result where that depends on the terminal: the cursor
is at the end of a line and its position matters, a character does not fit on its line, a position
does not exist, the text has control characters other than carriage return and line feed, or a
combining mark does not directly follow its character. -/
def Page.after (u : UEnv) (crlf : Bool) (p : Page) : TOp → Option Page
  | .write s => p.put u crlf s
  | .styled t s => ((p.paint t).put u crlf s).map (Page.paint plainTheme)
  | .clearScreen => some { p with
      grid := (p.grid.erase (fun _ => True) p.grid.attrs.wiped).goto ⟨0, 0⟩ }
  | .clearToLineEnd => p.grid.cur.map fun c =>
      { p with grid := p.grid.erase (RestOfLine c) p.grid.attrs.wiped }
  | .clearToScreenEnd => p.grid.cur.map fun c =>
      { p with grid := p.grid.erase (RestOfScreen c) p.grid.attrs.wiped }
  | .move d n => if n = 0 then some { p with grid := { p.grid with last := none } } else
      p.grid.cur.map fun c => { p with grid := p.grid.goto (p.grid.shifted c d n) }
  | .firstColumn => p.grid.cur.map fun c => { p with grid := p.grid.goto ⟨c.line, 0⟩ }
  | .moveTo c => if InBounds c p.grid.size then some { p with grid := p.grid.goto c } else none
  | .cursorMode m => some { p with visible := m != .invisible }
  | .flush | .release => some p
  | op => some (p.paint (op.wants p.grid.attrs.theme))

/-- The page after a call that returned an error: nothing has changed, but for the theme of a styled
write. -/
def Page.failed (p : Page) : TOp → Page
  | .styled t _ => p.paint t
  | _ => p

/-- The page after a sequence of calls, some of which failed. -/
def Page.run (u : UEnv) (crlf : Bool) : List (TOp × Bool) → Page → Option Page
  | [], p => some p
  | (op, true) :: l, p => (p.after u crlf op).bind (run u crlf l)
  | (op, false) :: l, p => run u crlf l (p.failed op)

/-- A grid of a sensible size, with the cursor and the last character inside, and with the halves of
two-column characters in pairs. -/
structure Term.Sound {A : Type} (t : Term A) : Prop where
  size : GoodSize t.size
  cur : ∀ c, t.cur = some c → InBounds c t.size
  last : ∀ c, t.last = some c → InBounds c t.size
  paired : t.Paired

/-- A page such as a new terminal has: the next character has no attributes. -/
def Page.Fresh (p : Page) : Prop := p.grid.attrs = { theme := plainTheme } ∧ p.grid.Sound

/-! ## A Unix terminal -/

/-- The call on Unix. -/
def TOp.unix : TOp → WOp
  | .fg c => .setFg c
  | .bg c => .setBg c
  | .addStyle s => .addStyle s
  | .removeStyle s => .removeStyle s
  | .style s => .setStyle s
  | .theme t => .setTheme t
  | .clearAttributes => .clearAttributes
  | .write s => .writeStr (encode s)
  | .styled t s => .writeStyled t.fg t.bg t.style (encode s)
  | .clearScreen => .clearScreen
  | .clearToLineEnd => .clearToLineEnd
  | .clearToScreenEnd => .clearToScreenEnd
  | .move d n => d.op n
  | .firstColumn => .moveToFirstColumn
  | .moveTo p => .moveCursor p
  | .cursorMode m => .setCursorMode m
  | .flush => .flush
  | .release => .sessionEnd

/-- A terminal with a cursor that can be hidden. -/
structure Emu where
  t : Term
  visible : Bool

/-- A relative move. -/
def Emu.move (e : Emu) (d : Dir) (n : Nat) : Option Emu :=
  e.t.cur.map fun p => { e with t := e.t.goto (e.t.shifted p d n) }

/-- A command or text arrives at a terminal, by the meaning terminfo(5) gives it. `fill` are the
attributes of cells erased while others are in effect; `crlf` tells whether a line feed returns to the
first column. -/
def Emu.step (u : UEnv) (crlf : Bool) (fill : DevAttrs → DevAttrs) (e : Emu) : Out → Option Emu
  | .cap .cursorNormal _ => some { e with visible := true }
  | .cap .cursorInvisible _ => some { e with visible := false }
  | .cap .clearScreen _ => some { e with
      t := (e.t.erase (fun _ => True) (fill e.t.attrs)).goto ⟨0, 0⟩ }
  | .cap .clrEol _ => e.t.cur.map fun p => { e with
      t := e.t.erase (RestOfLine p) (fill e.t.attrs) }
  | .cap .clrEos _ => e.t.cur.map fun p => { e with
      t := e.t.erase (RestOfScreen p) (fill e.t.attrs) }
  | .cap .cursorUp _ => e.move .up 1
  | .cap .cursorLeft _ => e.move .left 1
  | .cap .cursorRight _ => e.move .right 1
  | .cap .parmUp [n] => e.move .up n
  | .cap .parmDown [n] => e.move .down n
  | .cap .parmLeft [n] => e.move .left n
  | .cap .parmRight [n] => e.move .right n
  | .text b =>
    match decodeAll b.length b with
    | (s, .done) => (e.t.typeText u crlf fill s).map fun t => { e with t := t }
    | _ => none
  | o => (e.t.step u o).map fun t => { e with t := t }

/-- A sequence of commands and texts. -/
def Emu.play (u : UEnv) (crlf : Bool) (fill : DevAttrs → DevAttrs) : List Out → Emu → Option Emu
  | [], e => some e
  | o :: os, e => (e.step u crlf fill o).bind (play u crlf fill os)

/-- How ink looks on a Unix terminal. -/
def Ink.unix (fill : DevAttrs → DevAttrs) (i : Ink) : DevAttrs :=
  if i.way = .written then view i.theme else fill (view i.theme)

/-- What a cell shows, with other attributes. -/
def TCell.map {A B : Type} (f : A → B) : TCell A → TCell B
  | .narrow x a => .narrow x (f a)
  | .left x a => .left x (f a)
  | .right => .right
  | .torn => .torn

/-- The terminal shows the page: every cell has the character and looks as it should, the cursor is
where it should be and visible if it should be, and the next character goes where it should. -/
def Emu.Shows (fill : DevAttrs → DevAttrs) (e : Emu) (p : Page) : Prop :=
  e.t.size = p.grid.size ∧ (∀ q, e.t.cell q = (p.grid.cell q).map (Ink.unix fill)) ∧
  e.t.cur = p.grid.cur ∧ (∀ c, p.grid.last = some c → e.t.last = some c) ∧
  e.t.attrs = p.grid.attrs.unix fill ∧
  e.visible = p.visible

/-- The terminal supports all attributes and can hide the cursor; no expansion fails. (It need not
support anything else: a call it does not support fails.) -/
structure DirectDB (env : WEnv) : Prop where
  attrs : FullAttrs env
  normal : ∃ f, env.db .cursorNormal = some f
  invisible : ∃ f, env.db .cursorInvisible = some f
  good : ∀ c f, env.db c = some f → ∀ ps, (f ps).2 = true

/-- A history of calls together with which of them returned `Ok`. -/
def traceT (env : WEnv) : List TOp → WS → Option (List (TOp × Bool) × WS)
  | [], s => some ([], s)
  | op :: ops, s =>
    match op.unix.run env s with
    | .ok s' => (traceT env ops s').map fun (l, s'') => ((op, true) :: l, s'')
    | .err _ s' => (traceT env ops s').map fun (l, s'') => ((op, false) :: l, s'')
    | .stop _ => none

/-! ## A Windows console -/

/-- The call on Windows. -/
def TOp.win (t : WTerm) : TOp → WM Unit
  | .fg c => winSetFg t c
  | .bg c => winSetBg t c
  | .addStyle s => winAddStyle t s
  | .removeStyle s => winRemoveStyle t s
  | .style s => winSetStyle t s
  | .theme th => winSetAttributes t th
  | .clearAttributes => winClearAttributes t
  | .write s => winWriteStr s
  | .styled th s => winWriteStyled t th s
  | .clearScreen => winClearScreen t
  | .clearToLineEnd => winClearToLineEnd t
  | .clearToScreenEnd => winClearToScreenEnd t
  | .move .up n => winMoveUp n
  | .move .down n => winMoveDown n
  | .move .left n => winMoveLeft n
  | .move .right n => winMoveRight n
  | .firstColumn => winFirstColumn
  | .moveTo p => winMoveCursor p
  | .cursorMode m => winCursorMode m
  | .flush => winFlush
  | .release => pure ()

/-- The calls that only concern the cursor. -/
def TOp.IsCursor : TOp → Prop
  | .move _ _ | .firstColumn | .moveTo _ | .cursorMode _ => True
  | _ => False

/-- An attribute word is right for ink: text looks as its theme asks for, and erased cells as the
console does by default. Nothing is said of cells that scrolled in. -/
def Ink.Looks (t : WTerm) (i : Ink) (w : BitVec 16) : Prop :=
  match i.way with
  | .written => lookOf w = wantedLook t.defAttrs i.theme.fg i.theme.bg i.theme.style
  | .erased => lookOf w = lookOf t.defAttrs
  | .scrolled => True

/-- The buffer shows the page: every cell has the character and looks as it should (two-column
characters in both cells), the cursor is where it should be and visible if it should be, and the next
character goes where it should and will look as it should. -/
structure OutBuf.Presents (t : WTerm) (o : OutBuf) (p : Page) : Prop where
  size : o.glyph.size = p.grid.size
  cell : ∀ q, InBounds q p.grid.size → o.glyph.cell q = (p.grid.cell q).map fun _ => ()
  narrow : ∀ q x i, InBounds q p.grid.size → p.grid.cell q = .narrow x i → i.Looks t (o.attr q)
  wide : ∀ q x i, InBounds q p.grid.size → p.grid.cell q = .left x i → i.Looks t (o.attr q) ∧
    i.Looks t (o.attr ⟨q.line, q.column + 1⟩)
  cur : ∀ c, p.grid.cur = some c → o.glyph.cur = some c
  last : ∀ c, p.grid.last = some c → o.glyph.last = some c
  ink : p.grid.attrs.Looks t o.word
  visible : o.shape.2 = p.visible
  pend : o.pend = []

/-- All of the buffer is visible. -/
def OutBuf.Whole (o : OutBuf) : Prop :=
  o.window = ⟨0, 0, (o.glyph.size.columns : Int) - 1, (o.glyph.size.lines : Int) - 1⟩

/-- A history of calls together with which of them returned `Ok`. -/
def traceWin (t : WTerm) : List TOp → WinSt → Option (List (TOp × Bool) × WinSt)
  | [], s => some ([], s)
  | op :: ops, s =>
    match op.win t s with
    | .ok _ s' => (traceWin t ops s').map fun (l, s'') => ((op, true) :: l, s'')
    | .err _ s' => (traceWin t ops s').map fun (l, s'') => ((op, false) :: l, s'')
    | .stop _ => none

end Mortal.Spec
