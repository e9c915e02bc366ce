import Verif.Model.Win
import Verif.Spec.Screen

/-!
# A Windows console

What the calls of the console do and what they may answer, independently of the code that makes
them. A call that answers `fail` has no effect. Where consoles differ, or this specification says
nothing, there is no result.
-/

namespace Mortal.Spec

/-- A screen buffer: the characters in its cells and the cursor (`glyph`, like a terminal without
attributes), the attribute word of every cell, the word for new characters, the part that is visible,
the output mode, the units received that are not yet a whole character, and the shape of the cursor. -/
structure OutBuf where
  glyph : Term Unit
  attr : Cursor → BitVec 16
  word : BitVec 16
  window : Rect
  mode : BitVec 32
  pend : List (BitVec 16) := []
  shape : Nat × Bool

/-- A console: the input mode, the number of times the control handler is registered, the records
waiting, the visible screen buffer, and all screen buffers by their handles. -/
structure Con where
  inMode : BitVec 32
  handlers : Nat
  queue : List InRec
  active : Nat
  outs : Nat → Option OutBuf

/-- `INVALID_HANDLE_VALUE`. -/
def invalidHandle : Nat := 18446744073709551615

/-- Reading UTF-16: the characters, and the units of an unfinished one. Lone surrogates have no
specified result. -/
def decode16 : List (BitVec 16) → Option (List Char × List (BitVec 16))
  | [] => some ([], [])
  | a :: rest =>
    if 0xD800 ≤ a.toNat ∧ a.toNat < 0xDC00 then
      match rest with
      | [] => some ([], [a])
      | b :: rest =>
        if 0xDC00 ≤ b.toNat ∧ b.toNat < 0xE000 then
          (decode16 rest).map fun (s, p) =>
            (Char.ofNat (0x10000 + (a.toNat - 0xD800) * 0x400 + (b.toNat - 0xDC00)) :: s, p)
        else none
    else if 0xDC00 ≤ a.toNat ∧ a.toNat < 0xE000 then none
    else (decode16 rest).map fun (s, p) => (Char.ofNat a.toNat :: s, p)

/-- The cursor is at `p`; a mark that follows has no character to join. -/
def Term.goto {A : Type} (t : Term A) (p : Cursor) : Term A := { t with cur := some p, last := none }

/-- A new line, whose cells are blank with attributes `d` if there is none below; `crlf` tells whether
it returns to the first column. -/
def Term.newline {A : Type} (crlf : Bool) (d : A) (t : Term A) (p : Cursor) : Term A :=
  let c := if crlf then 0 else p.column
  if p.line + 1 < t.size.lines then t.goto ⟨p.line + 1, c⟩
  else { t.goto ⟨p.line, c⟩ with
    cell := fun q => if q.line + 1 < t.size.lines then t.cell ⟨q.line + 1, q.column⟩
      else .narrow [' '] d }

/-- A line feed at `p`: it returns to the first column unless bit 3 of the mode is set
(`DISABLE_NEWLINE_AUTO_RETURN`). No result when the window would move. (Consoles differ in the
attributes of a line that scrolls in; here it is the word in effect, on which no theorem relies.) -/
def OutBuf.lineFeed (o : OutBuf) (p : Cursor) : Option OutBuf :=
  if o.window.top ≤ p.line ∧ (p.line : Int) ≤ o.window.bottom ∧
      ((p.line : Int) + 1 ≤ o.window.bottom ∨ p.line + 1 = o.glyph.size.lines) then
    some { o with
      glyph := o.glyph.newline (!o.mode.getLsbD 3) () p
      attr := if p.line + 1 < o.glyph.size.lines then o.attr else
        fun q => if q.line + 1 < o.glyph.size.lines then o.attr ⟨q.line + 1, q.column⟩ else o.word }
  else none

/-- Carriage return and line feed arrive, which are obeyed if bit 0 of the mode is set
(`ENABLE_PROCESSED_OUTPUT`). Other control characters have no specified result. -/
def OutBuf.putControl (o : OutBuf) (ch : Char) : Option OutBuf :=
  if o.mode.getLsbD 0 = false then none
  else if ch = '\r' then o.glyph.cur.map fun p => { o with glyph := o.glyph.goto ⟨p.line, 0⟩ }
  else if ch = '\n' then o.glyph.cur.bind o.lineFeed
  else none

/-- A character arrives: the cells it covers get the attribute word in effect. -/
def OutBuf.putChar (u : UEnv) (o : OutBuf) (ch : Char) : Option OutBuf :=
  if Control ch then o.putControl ch else
  (o.glyph.putChar u ch).map fun g =>
    { o with
      glyph := g
      attr := fun q =>
        match o.glyph.cur with
        | none => o.attr q
        | some p =>
          if u.w ch ≠ 0 ∧ q = p ∨ u.w ch = 2 ∧ q = ⟨p.line, p.column + 1⟩ then o.word else o.attr q }

/-- Text arrives. -/
def OutBuf.putText (u : UEnv) : List Char → OutBuf → Option OutBuf
  | [], o => some o
  | ch :: s, o => (o.putChar u ch).bind (putText u s)

/-- UTF-16 units arrive. -/
def OutBuf.feed (u : UEnv) (o : OutBuf) (us : List (BitVec 16)) : Option OutBuf :=
  (decode16 (o.pend ++ us)).bind fun (s, p) => ({ o with pend := p } : OutBuf).putText u s

/-- A position as the console gives it. -/
def atCoord (p : Cursor) : Coord := ⟨p.column, p.line⟩

/-- A size as the console gives it. -/
def sizeCoord (z : Size) : Coord := ⟨z.columns, z.lines⟩

/-- A coordinate is a cell of a buffer. -/
def CoordIn (c : Coord) (z : Size) : Prop := ∃ p, InBounds p z ∧ c = atCoord p

/-- What the console tells about a buffer. -/
def OutBuf.Tells (o : OutBuf) (i : Info) : Prop :=
  i.size = sizeCoord o.glyph.size ∧ CoordIn i.cursor o.glyph.size ∧
  (∀ p, o.glyph.cur = some p → i.cursor = atCoord p) ∧ i.attrs = o.word ∧ i.window = o.window

/-- The cells from `start` on, `n` of them in reading order. (Cells outside the buffer do not exist;
they are taken along to keep the terms simple.) -/
def Swept (z : Size) (start : Coord) (n : Nat) (q : Cursor) : Prop :=
  ¬ InBounds q z ∨ (numOf z (coordToCursor start) ≤ numOf z q ∧
    numOf z q < numOf z (coordToCursor start) + n)

instance (z : Size) (start : Coord) (n : Nat) (q : Cursor) : Decidable (Swept z start n q) := by
  unfold Swept InBounds; infer_instance

/-- `FillConsoleOutputAttribute`. -/
def OutBuf.fillAttr (o : OutBuf) (w : BitVec 16) (n : Nat) (start : Coord) : OutBuf :=
  { o with attr := fun q => if Swept o.glyph.size start n q then w else o.attr q }

/-- `FillConsoleOutputCharacter` with a one-column character. -/
def OutBuf.fillChar (o : OutBuf) (ch : Char) (n : Nat) (start : Coord) : OutBuf :=
  let z := o.glyph.size
  { o with glyph := { o.glyph with
      cell := fun q =>
        if Swept z start n q then .narrow [ch] ()
        else match o.glyph.cell q with
          | .left x d => if Swept z start n ⟨q.line, q.column + 1⟩ then .torn else .left x d
          | .right => if Swept z start n ⟨q.line, q.column - 1⟩ then .torn else .right
          | c => c } }

/-- A new screen buffer takes its attributes, size, window, mode and cursor from the visible one. -/
def OutBuf.fresh (o : OutBuf) : OutBuf :=
  { glyph := { size := o.glyph.size, cell := fun _ => .narrow [' '] (), cur := some ⟨0, 0⟩,
               last := none, attrs := () }
    attr := fun _ => o.word
    word := o.word
    window := o.window
    mode := o.mode
    shape := o.shape }

/-- `SetConsoleScreenBufferSize`: new cells are blank. -/
def OutBuf.resize (o : OutBuf) (z : Size) : OutBuf :=
  let g := o.glyph
  { o with
    glyph := { g with
      size := z
      cell := fun q =>
        if InBounds q g.size ∧ InBounds q z then
          match g.cell q with
          | .left x d => if InBounds ⟨q.line, q.column + 1⟩ z then .left x d else .torn
          | c => c
        else .narrow [' '] ()
      cur := match g.cur with
        | some p => if InBounds p z then some p else none
        | none => none
      last := none }
    attr := fun q => if InBounds q g.size ∧ InBounds q z then o.attr q else o.word }

/-- `ScrollConsoleScreenBuffer` for whole lines, told to fill with blanks of attribute 0: the lines of
`src` are copied so that the first of them comes to the line of `dest`; what is left of `src` is
filled. (The rectangle may reach past the edges of the buffer.) -/
def OutBuf.scrollLines (o : OutBuf) (src : Rect) (dest : Coord) : OutBuf :=
  let top := src.top.toNat
  let bottom := min src.bottom.toNat (o.glyph.size.lines - 1)
  let to := dest.y.toNat
  let copied := fun q : Cursor => to ≤ q.line ∧ q.line + top ≤ to + bottom
  let filled := fun q : Cursor => top ≤ q.line ∧ q.line ≤ bottom
  { o with
    glyph := { o.glyph with
      cell := fun q => if copied q then o.glyph.cell ⟨q.line + top - to, q.column⟩
        else if filled q then .narrow [' '] () else o.glyph.cell q
      last := none }
    attr := fun q => if copied q then o.attr ⟨q.line + top - to, q.column⟩
        else if filled q then 0 else o.attr q }

/-- The record `ctrl_handler` writes to the queue: a key release. -/
def wakeRecord : InRec := .key { down := false, vk := 0, uchar := 0, keys := 0 }

/-- Change a screen buffer. -/
def Con.setOut (c : Con) (h : Nat) (o : OutBuf) : Con :=
  { c with outs := fun k => if k = h then some o else c.outs k }

/-- Change a screen buffer, if it exists. -/
def Con.onOut (c : Con) (h : Nat) (f : OutBuf → Option OutBuf) : Option Con :=
  (c.outs h).bind fun o => (f o).map fun o' => c.setOut h o'

/-- A window within a buffer. -/
def RectIn (r : Rect) (z : Size) : Prop :=
  0 ≤ r.left ∧ r.left ≤ r.right ∧ r.right < z.columns ∧
  0 ≤ r.top ∧ r.top ≤ r.bottom ∧ r.bottom < z.lines

/-- What may happen: the answers a call may give, and when the control handler may be called. `k` is
the handle of the input. -/
def Con.Possible (k : Nat) (c : Con) : WEv → Prop
  | .ctrl _ _ _ => 0 < c.handlers
  | .input _ => True
  | .call call a =>
    match call with
    | .atomic => True
    | .getStd _ => ∃ h, a = .handle h
    | .create => a = .handle invalidHandle ∨
        ∃ h, a = .handle h ∧ h ≠ 0 ∧ h ≠ invalidHandle ∧ h ≠ k ∧ c.outs h = none ∧
          ∃ o, c.outs c.active = some o
    | .getMode h => a = .fail ∨ (h = k ∧ a = .mode c.inMode) ∨
        (h ≠ k ∧ ∃ o, c.outs h = some o ∧ a = .mode o.mode)
    | .setMode h _ => a = .fail ∨ (a = .ok ∧ (h = k ∨ ∃ o, c.outs h = some o))
    | .setCtrlHandler add => a = .fail ∨ (a = .ok ∧ (add = true ∨ 0 < c.handlers))
    | .getInfo h => a = .fail ∨ ∃ o i, c.outs h = some o ∧ o.Tells i ∧ a = .info i
    | .setAttr h _ => a = .fail ∨ (a = .ok ∧ ∃ o, c.outs h = some o)
    | .setCursorPos h p => a = .fail ∨ (a = .ok ∧ ∃ o, c.outs h = some o ∧ CoordIn p o.glyph.size)
    | .setCursorInfo h _ _ => a = .fail ∨ (a = .ok ∧ ∃ o, c.outs h = some o)
    | .write h us => a = .fail ∨ ∃ o n, c.outs h = some o ∧ n ≤ us.length ∧ a = .wrote n
    | .fillAttr h _ _ p => a = .fail ∨ (a = .ok ∧ ∃ o, c.outs h = some o ∧ CoordIn p o.glyph.size)
    | .fillChar h _ _ p => a = .fail ∨ (a = .ok ∧ ∃ o, c.outs h = some o ∧ CoordIn p o.glyph.size)
    | .setWindow h r => a = .fail ∨ (a = .ok ∧ ∃ o, c.outs h = some o ∧ RectIn r o.glyph.size)
    | .scroll h _ _ => a = .fail ∨ (a = .ok ∧ ∃ o, c.outs h = some o)
    | .setBufSize h z => a = .fail ∨ (a = .ok ∧ ∃ o, c.outs h = some o ∧
        RectIn o.window (coordToSize z))
    | .setActive h => a = .fail ∨ (a = .ok ∧ ∃ o, c.outs h = some o)
    | .close h => a = .fail ∨ (a = .ok ∧ ∃ o, c.outs h = some o)
    | .wait h ms => a = .fail ∨ (a = .ok ∧ h = k ∧ c.queue ≠ []) ∨
        (a = .timeout ∧ h = k ∧ c.queue = [] ∧ ms ≠ 0xFFFFFFFF)
    | .readInput h len => a = .fail ∨
        ∃ l, a = .recs l ∧ h = k ∧ l <+: c.queue ∧ l.length ≤ len.toNat ∧ l ≠ []
    | .readConsole h len => a = .fail ∨ ∃ l, a = .chars l ∧ h = k ∧ l.length ≤ len.toNat

/-- What happens does to the console. No result for an answer that is not possible, for
`ScrollConsoleScreenBuffer` with anything but whole lines and for reading characters from the queue. -/
def Con.step (u : UEnv) (k : Nat) (c : Con) : WEv → Option Con
  | .ctrl _ _ woke => some (if woke then { c with queue := c.queue ++ [wakeRecord] } else c)
  | .input r => some { c with queue := c.queue ++ [r] }
  | .call _ .fail => some c
  | .call call a =>
    match call with
    | .atomic | .getStd _ | .getMode _ | .getInfo _ | .wait _ _ => some c
    | .create =>
      match a with
      | .handle h =>
        if h = invalidHandle then some c
        else (c.outs c.active).map fun o => c.setOut h o.fresh
      | _ => none
    | .setMode h m => if h = k then some { c with inMode := m }
        else c.onOut h fun o => some { o with mode := m }
    | .setCtrlHandler add =>
      some { c with handlers := if add then c.handlers + 1 else c.handlers - 1 }
    | .setAttr h w => c.onOut h fun o => some { o with word := w }
    | .setCursorPos h p => c.onOut h fun o =>
        some { o with glyph := { o.glyph with cur := some (coordToCursor p), last := none } }
    | .setCursorInfo h n v => c.onOut h fun o => some { o with shape := (n, v) }
    | .write h us =>
      match a with
      | .wrote n => c.onOut h fun o => o.feed u (us.take n)
      | _ => none
    | .fillAttr h w n p => c.onOut h fun o => some (o.fillAttr w n.toNat p)
    | .fillChar h ch n p => c.onOut h fun o =>
        if u.w ch = 1 then some (o.fillChar ch n.toNat p) else none
    | .setWindow h r => c.onOut h fun o => some { o with window := r }
    | .scroll h src dest => c.onOut h fun o =>
        if src.left ≤ 0 ∧ (o.glyph.size.columns : Int) ≤ src.right + 1 ∧ dest.x = src.left ∧
            0 ≤ src.top ∧ src.top ≤ src.bottom ∧ 0 ≤ dest.y then
          some (o.scrollLines src dest)
        else none
    | .setBufSize h z => c.onOut h fun o => some (o.resize (coordToSize z))
    | .setActive h => (c.outs h).map fun _ => { c with active := h }
    | .close h => some { c with outs := fun j => if j = h then none else c.outs j }
    | .readInput _ _ =>
      match a with
      | .recs l => some { c with queue := c.queue.drop l.length }
      | _ => none
    | .readConsole _ _ => none

/-- A sequence of events and calls. -/
def Con.play (u : UEnv) (k : Nat) : List WEv → Con → Option Con
  | [], c => some c
  | e :: l, c => (c.step u k e).bind (play u k l)

/-- Everything in the record may happen. -/
def Con.Runs (u : UEnv) (k : Nat) : List WEv → Con → Prop
  | [], _ => True
  | e :: l, c => c.Possible k e ∧ ∀ c', c.step u k e = some c' → Runs u k l c'

/-- No call in the record failed. -/
def NoFailure (l : List WEv) : Prop :=
  ∀ c a, WEv.call c a ∈ l → a ≠ .fail ∧ (c = .create → a ≠ .handle invalidHandle)

end Mortal.Spec
