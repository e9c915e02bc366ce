import Verif.Spec.BufferOps

/-! # What writing text on a screen should do, position by position

A reference for every drawing call, in terms of positions only: no list of cells, no indices, no
loops over cells. -/

namespace Mortal.Spec

/-- A blank cell. -/
def blankCell : Cell := ⟨none, none, 0#8, [' ']⟩

/-- A cell holding the character, with the attributes in force. -/
def Pic.ink (p : Pic) (ch : Char) : Cell := ⟨p.fg, p.bg, p.style, [ch]⟩

/-- The position before `c` in reading order, for a cursor that may also be outside. -/
def posBefore (s : Size) (c : Cursor) : Option Cursor :=
  match c.line, c.column with
  | l, k + 1 => some ⟨l, k⟩
  | l + 1, 0 => some ⟨l, s.columns - 1⟩
  | 0, 0 => none

/-- The position holds (the left half of) a two-column character. -/
def Pic.wideAt (env : UEnv) (p : Pic) (c : Cursor) : Bool :=
  match p.cell c with
  | some ⟨_, _, _, ch :: _⟩ => env.width ch == some 2
  | _ => false

/-- Put a character of `w` columns at `pos`: its cell holds it, the other columns it takes hold spaces,
and if it covers the right half of a two-column character the left half becomes blank. -/
def Pic.put (env : UEnv) (p : Pic) (pos : Cursor) (w : Nat) (ch : Char) : Pic :=
  { p with cell := fun c =>
      if c = pos then some (p.ink ch)
      else if c.line = pos.line ∧ pos.column < c.column ∧ c.column < pos.column + w then some (p.ink ' ')
      else if posBefore p.size pos = some c ∧ p.wideAt env c then some blankCell
      else p.cell c }

/-- Move the cursor to `col` of the line of `pos`, to the start of the next line if that is the end of the
line. -/
def Pic.moveTo (p : Pic) (pos : Cursor) (col : Nat) : Pic :=
  { p with cursor := if col = p.size.columns then ⟨pos.line + 1, 0⟩ else ⟨pos.line, col⟩ }

/-- The position whose character a combining mark belongs to: the character that ends before the
cursor. -/
def Pic.markAt (env : UEnv) (p : Pic) : Option Cursor :=
  match posBefore p.size p.cursor with
  | none => none
  | some c =>
    if 0 < c.column ∧ p.wideAt env ⟨c.line, c.column - 1⟩ then some ⟨c.line, c.column - 1⟩ else some c

/-- Write one character. `false`: there is no room, and the rest of a text is dropped. Nothing: the
cursor's line would not be a `usize`. A two-column character that does not fit on the line leaves the rest
of the line blank and goes to the next line. -/
def Pic.char (env : UEnv) (p : Pic) (ch : Char) : Option (Pic × Bool) :=
  if ch = '\r' then some ({ p with cursor := ⟨p.cursor.line, 0⟩ }, true)
  else if ch = '\n' then
    if p.cursor.line + 1 < 2 ^ 64 then some ({ p with cursor := ⟨p.cursor.line + 1, 0⟩ }, true) else none
  else if ch = '\t' then
    if InBounds p.cursor p.size then
      let stop := tabTarget p.size.columns p.cursor.column
      some ((p.put env p.cursor (stop - p.cursor.column) ' ').moveTo p.cursor stop, true)
    else some (p, false)
  else if env.combining ch then
    match p.markAt env with
    | none => some (p, true)
    | some c =>
      if InBounds c p.size then
        some ({ p with cell := fun d =>
          if d = c then (p.cell c).map fun x => { x with text := x.text ++ [ch] } else p.cell d }, true)
      else some (p, false)
  else if env.w ch = 0 then some (p, true)
  else if InBounds p.cursor p.size then
    if p.cursor.column + env.w ch ≤ p.size.columns then
      some ((p.put env p.cursor (env.w ch) ch).moveTo p.cursor (p.cursor.column + env.w ch), true)
    else
      let q := p.put env p.cursor (p.size.columns - p.cursor.column) ' '
      let next : Cursor := ⟨p.cursor.line + 1, 0⟩
      if InBounds next p.size then some ((q.put env next (env.w ch) ch).moveTo next (env.w ch), true)
      else some ({ q with cursor := next }, false)
  else some (p, false)

/-- Write a text; what has no room is dropped. -/
def Pic.text (env : UEnv) (p : Pic) : List Char → Option (Pic × Bool)
  | [] => some (p, true)
  | ch :: s =>
    match p.char env ch with
    | none => none
    | some (p', true) => p'.text env s
    | some (p', false) => some (p', false)

/-- The same attributes, as a call asks for them. -/
def Pic.inked (p : Pic) (fg bg : Option Color) (st : Style) : Pic := { p with fg := fg, bg := bg, style := st }

/-- What any drawing call should make of a picture. A call that writes at a position outside does
nothing; a call with attributes leaves none in force. -/
def Pic.draw (env : UEnv) (p : Pic) : BufOp → Option Pic
  | .writeChar ch => (p.text env [ch]).map (·.1)
  | .writeStr s => (p.text env s).map (·.1)
  | .writeAt pos s =>
    if InBounds pos p.size then (({ p with cursor := pos } : Pic).text env s).map (·.1) else some p
  | .writeStyled fg bg st s =>
    ((p.inked fg bg st).text env s).map fun x => x.1.inked none none 0#8
  | .writeStyledAt pos fg bg st s =>
    if InBounds pos p.size then
      ((({ p with cursor := pos } : Pic).inked fg bg st).text env s).map fun x => x.1.inked none none 0#8
    else some p
  | op => p.after op

/-- A history of drawing calls. -/
def Pic.drawAll (env : UEnv) : List BufOp → Pic → Option Pic
  | [], p => some p
  | op :: ops, p => (p.draw env op).bind (Pic.drawAll env ops)

/-- A screen nothing was drawn on. -/
def Pic.fresh (s : Size) : Pic where
  size := s
  cell c := if InBounds c s then some blankCell else none
  cursor := ⟨0, 0⟩
  fg := none
  bg := none
  style := 0#8

/-- The character meets neither of the two flaws of the code: a combining mark does not follow a
two-column character, and a character that takes columns fits on the line (or there is no room at all). -/
def Pic.Fits (env : UEnv) (p : Pic) (ch : Char) : Prop :=
  (Mark env ch → p.markAt env = posBefore p.size p.cursor) ∧
  (Printable env ch → InBounds p.cursor p.size → p.cursor.column + env.w ch ≤ p.size.columns)

/-- Every character of the text that is written meets neither flaw. -/
def Pic.Tame (env : UEnv) : Pic → List Char → Prop
  | _, [] => True
  | p, ch :: s => p.Fits env ch ∧ ∀ p', p.char env ch = some (p', true) → p'.Tame env s

/-- The text of a call is tame, a text with attributes also has room, a resize is to a proper size. -/
def Pic.TameOp (env : UEnv) (p : Pic) : BufOp → Prop
  | .writeChar ch => p.Tame env [ch]
  | .writeStr s => p.Tame env s
  | .writeAt pos s => InBounds pos p.size → ({ p with cursor := pos } : Pic).Tame env s
  | .writeStyled fg bg st s =>
    (p.inked fg bg st).Tame env s ∧ ∀ p' r, (p.inked fg bg st).text env s = some (p', r) → r = true
  | .writeStyledAt pos fg bg st s =>
    InBounds pos p.size → (({ p with cursor := pos } : Pic).inked fg bg st).Tame env s ∧
      ∀ p' r, (({ p with cursor := pos } : Pic).inked fg bg st).text env s = some (p', r) → r = true
  | .resize s => GoodSize s
  | _ => True

/-- Every call of the history is tame when it is made. -/
def Pic.TameRun (env : UEnv) : Pic → List BufOp → Prop
  | _, [] => True
  | p, op :: ops => p.TameOp env op ∧ ∀ p', p.draw env op = some p' → p'.TameRun env ops

/-- A text with attributes has room; a resize is to a proper size. -/
def Pic.RoomOp (env : UEnv) (p : Pic) : BufOp → Prop
  | .writeStyled fg bg st s => ∀ p' r, (p.inked fg bg st).text env s = some (p', r) → r = true
  | .writeStyledAt pos fg bg st s => InBounds pos p.size →
      ∀ p' r, (({ p with cursor := pos } : Pic).inked fg bg st).text env s = some (p', r) → r = true
  | .resize s => GoodSize s
  | _ => True

/-- Every call of the history has room when it is made. -/
def Pic.RoomRun (env : UEnv) : Pic → List BufOp → Prop
  | _, [] => True
  | p, op :: ops => p.RoomOp env op ∧ ∀ p', p.draw env op = some p' → p'.RoomRun env ops

end Mortal.Spec
