import Verif.Model.Screen
import Verif.Spec.Writer
import Verif.Spec.Buffer
import Verif.Spec.Cursor

/-!
# A terminal

What a terminal makes of the commands and the text it receives, independently of the code that
sends them: a grid of cells, a cursor and the attributes in effect. Where terminals differ the
result is left open, either by the cell content `torn` or by having no result at all.
-/

namespace Mortal.Spec

/-- What a cell of a terminal shows: a one-column character (with combining marks) and its
attributes; the left half of a two-column character; the right half of the character to its left;
what is left of a two-column character when its other half has been overwritten. -/
inductive TCell (A : Type := DevAttrs)
  | narrow (text : List Char) (d : A)
  | left (text : List Char) (d : A)
  | right
  | torn
deriving DecidableEq

/-- A terminal. `cur` is the cursor; `none` if its position depends on the kind of terminal (after
writing in the last column). `last` is the character just written, to which a combining mark would
be added. `bce` tells whether erased cells take the attributes in effect or none. `A` are the
attributes a cell can have. -/
structure Term (A : Type := DevAttrs) where
  size : Size
  cell : Cursor → TCell A
  cur : Option Cursor
  last : Option Cursor
  attrs : A
  bce : Bool := true

/-- Change one cell. -/
def Term.set {A : Type} (t : Term A) (p : Cursor) (c : TCell A) : Term A :=
  { t with cell := fun q => if q = p then c else t.cell q }

/-- The cell at `p` is about to be overwritten: if it is one half of a two-column character, the
other half is torn. -/
def Term.cut {A : Type} (t : Term A) (p : Cursor) : Term A :=
  match t.cell p with
  | .left _ _ => t.set ⟨p.line, p.column + 1⟩ .torn
  | .right => t.set ⟨p.line, p.column - 1⟩ .torn
  | _ => t

/-- The cursor `n` columns to the right; unknown when that leaves the line. -/
def Term.advance {A : Type} (t : Term A) (p : Cursor) (n : Nat) : Option Cursor :=
  if p.column + n < t.size.columns then some ⟨p.line, p.column + n⟩ else none

/-- A control character. -/
def Control (ch : Char) : Prop := ch.toNat < 32 ∨ (127 ≤ ch.toNat ∧ ch.toNat < 160)

instance (ch : Char) : Decidable (Control ch) := by unfold Control; infer_instance

/-- A character arrives. A character of width zero joins the one written just before. Control
characters, characters that do not fit on the line and characters at an unknown position have no
specified result. -/
def Term.putChar {A : Type} (u : UEnv) (t : Term A) (ch : Char) : Option (Term A) :=
  if Control ch then none
  else if u.w ch = 0 then
    match t.last with
    | none => none
    | some p =>
      match t.cell p with
      | .narrow x d => some (t.set p (.narrow (x ++ [ch]) d))
      | .left x d => some (t.set p (.left (x ++ [ch]) d))
      | _ => none
  else
    match t.cur with
    | none => none
    | some p =>
      if u.w ch = 1 then
        some { (t.cut p).set p (.narrow [ch] t.attrs) with
          cur := t.advance p 1, last := some p }
      else if u.w ch = 2 ∧ p.column + 1 < t.size.columns then
        let q : Cursor := ⟨p.line, p.column + 1⟩
        some { (((t.cut p).cut q).set p (.left [ch] t.attrs)).set q .right with
          cur := t.advance p 2, last := some p }
      else none

/-- Text arrives. -/
def Term.putText {A : Type} (u : UEnv) : List Char → Term A → Option (Term A)
  | [], t => some t
  | ch :: s, t => (t.putChar u ch).bind (putText u s)

/-- A command or a piece of text (in UTF-8) arrives. Commands that a screen does not send have no
specified result. -/
def Term.step (u : UEnv) (t : Term) : Out → Option Term
  | .cap .cursorAddress [l, c] =>
    if InBounds ⟨l, c⟩ t.size then some { t with cur := some ⟨l, c⟩, last := none } else none
  | .cap .cursorHome _ => some { t with cur := some ⟨0, 0⟩, last := none }
  | .cap .clearScreen _ =>
    some { t with cell := fun _ => .narrow [' '] (if t.bce then t.attrs else .plain),
                  cur := some ⟨0, 0⟩, last := none }
  | .cap .enterCaMode _ | .cap .exitCaMode _ =>
    some { t with cell := fun _ => .torn, cur := none, last := none }
  | .cap .changeScrollRegion _ => some { t with cur := none, last := none }
  | .cap .exitAttributeMode ps => some { t with attrs := devStep t.attrs (.cap .exitAttributeMode ps) }
  | .cap .enterBold ps => some { t with attrs := devStep t.attrs (.cap .enterBold ps) }
  | .cap .enterItalics ps => some { t with attrs := devStep t.attrs (.cap .enterItalics ps) }
  | .cap .enterReverse ps => some { t with attrs := devStep t.attrs (.cap .enterReverse ps) }
  | .cap .enterUnderline ps => some { t with attrs := devStep t.attrs (.cap .enterUnderline ps) }
  | .cap .exitItalics ps => some { t with attrs := devStep t.attrs (.cap .exitItalics ps) }
  | .cap .exitUnderline ps => some { t with attrs := devStep t.attrs (.cap .exitUnderline ps) }
  | .cap .setAForeground ps => some { t with attrs := devStep t.attrs (.cap .setAForeground ps) }
  | .cap .setABackground ps => some { t with attrs := devStep t.attrs (.cap .setABackground ps) }
  | .cap .cursorNormal _ | .cap .cursorInvisible _ | .cap .keypadXmit _ | .cap .keypadLocal _ =>
    some t
  | .cap _ _ => none
  | .text b =>
    match decodeAll b.length b with
    | (s, .done) => t.putText u s
    | _ => none
  | .junk _ => none

/-- A sequence of commands and texts arrives. -/
def Term.play (u : UEnv) : List Out → Term → Option Term
  | [], t => some t
  | o :: os, t => (t.step u o).bind (play u os)

/-- Halves of two-column characters come in pairs, within the screen. -/
def Term.Paired {A : Type} (t : Term A) : Prop :=
  (∀ l c, t.cell ⟨l, c⟩ = .right → 0 < c ∧ ∃ x d, t.cell ⟨l, c - 1⟩ = .left x d) ∧
  (∀ l c x d, t.cell ⟨l, c⟩ = .left x d →
    l < t.size.lines ∧ c + 1 < t.size.columns ∧ t.cell ⟨l, c + 1⟩ = .right)

/-- A terminal with nothing on its screen. -/
def Term.blank (size : Size) : Term :=
  { size := size, cell := fun _ => .narrow [' '] .plain, cur := some ⟨0, 0⟩, last := none,
    attrs := .plain }

open Classical in
/-- How a buffer cell should look. -/
noncomputable def picture (u : UEnv) (c : Cell) : TCell :=
  if HoldsWide u c then .left c.text (view ⟨c.fg, c.bg, c.style⟩)
  else .narrow c.text (view ⟨c.fg, c.bg, c.style⟩)

/-- The cell at `p` of the buffer is covered by the two-column character to its left. -/
def RightHalf (u : UEnv) (b : Buf) (p : Cursor) : Prop :=
  0 < p.column ∧ ∃ c, cellAt b ⟨p.line, p.column - 1⟩ = some c ∧ HoldsWide u c

open Classical in
/-- The terminal shows the buffer: every cell with its text and attributes; cells covered by a
two-column character show its right half. -/
def Displays (u : UEnv) (t : Term) (b : Buf) : Prop :=
  t.size = b.size ∧
  ∀ p c, InBounds p b.size → cellAt b p = some c →
    t.cell p = if RightHalf u b p then .right else picture u c

/-- Row-major order. -/
def Before (p q : Cursor) : Prop := p.line < q.line ∨ (p.line = q.line ∧ p.column < q.column)

/-- The text of a cell of the buffer, in UTF-8. -/
def textAt (b : Buf) (p : Cursor) : Bytes := ((cellAt b p).map fun c => encode c.text).getD []

/-- The cell before `p` in reading order holds a two-column character. In an intact buffer this is
the same as `RightHalf`. -/
def Shadowed (u : UEnv) (b : Buf) (p : Cursor) : Prop :=
  ∃ c, 0 < numOf b.size p ∧ b.buffer[numOf b.size p - 1]? = some c ∧ HoldsWide u c

/-- The texts among what was sent. -/
def sentTexts (l : List Out) : List Bytes :=
  l.filterMap fun
    | .text b => some b
    | _ => none

/-! ## Sessions -/

/-- The Unicode tables are as on a real system: a space is one column, no character is wider than
two, control characters have no width and are not combining marks. -/
structure TableOk (u : UEnv) : Prop where
  space : SpaceOk u
  le2 : ∀ ch, u.w ch ≤ 2
  ctl : ∀ ch, Control ch → u.w ch = 0 ∧ u.combining ch = false

/-- The terminal supports what a screen needs: all attributes, positioning and clearing. -/
structure DrawDB (env : WEnv) : Prop where
  attrs : FullAttrs env
  addr : ∃ f, env.db .cursorAddress = some f ∧ ∀ ps, (f ps).2 = true
  home : ∀ f, env.db .cursorHome = some f → ∀ ps, (f ps).2 = true
  clear : ∃ f, env.db .clearScreen = some f ∧ ∀ ps, (f ps).2 = true

/-- Where the cursor should be seen: at the screen's cursor, or in the last cell if that is
outside the screen. -/
def target (b : Buf) : Cursor :=
  if InBounds b.cursor b.size then b.cursor else ⟨b.size.lines - 1, b.size.columns - 1⟩

/-- What happens to a screen and its terminal: a drawing call, a refresh, or the arrival of a resize
event. When its size changes, the terminal may show anything and have its cursor anywhere. -/
inductive SStep
  | draw (op : BufOp)
  | refresh
  | resized (size : Size) (cell : Cursor → TCell) (cur : Option Cursor)

/-- A screen and the terminal that shows it. The terminal is taken to have received everything
handed over so far. -/
structure Sess where
  s : Scr
  t : Term

/-- One step; the flag tells whether it returned `Ok`. No result if the call does not return or the
terminal's reaction is not specified. -/
def SStep.run (u : UEnv) (env : WEnv) (x : Sess) : SStep → Option (Bool × Sess)
  | .draw op => (op.run u x.s.buf).map fun b => (true, { x with s := { x.s with buf := b } })
  | .refresh =>
    match x.s.refresh u env with
    | .ok s' => (x.t.play u (s'.w.log.drop x.s.w.log.length)).map fun t' => (true, ⟨s', t'⟩)
    | .err _ s' => (x.t.play u (s'.w.log.drop x.s.w.log.length)).map fun t' => (false, ⟨s', t'⟩)
    | .stop _ => none
  | .resized size cell cur =>
    (x.s.updateSize size).map fun d =>
      (true, ⟨{ d with w := x.s.w }, { size := size, cell := cell, cur := cur, last := none,
                                       attrs := x.t.attrs, bce := x.t.bce }⟩)

/-- A sequence of steps. -/
def runS (u : UEnv) (env : WEnv) : List SStep → Sess → Option (List Bool × Sess)
  | [], x => some ([], x)
  | st :: rest, x =>
    match st.run u env x with
    | none => none
    | some (r, x') => (runS u env rest x').map fun (l, y) => (r :: l, y)

/-- The part of a step that changes what the screen is to show. -/
def SStep.asOp : SStep → Option BufOp
  | .draw op => some op
  | .refresh => none
  | .resized size _ _ => some (.resize size)

/-- A screen just opened: the terminal has been used through `ops` before; then the alternate
screen was entered. -/
def Opened (u : UEnv) (env : WEnv) (size : Size) (x : Sess) : Prop :=
  ∃ (ops : List WOp) (os : List WriteRes) (w0 : WS) (t0 : Term), NoShortWrites os ∧ runW env ops (WS.new os) = some w0 ∧ t0.size = size ∧
    t0.attrs = devAttrs w0.log ∧ enterScreen env (some size) w0 = .ok x.s.w ∧
    x.s.toSData = SData.new size ∧ t0.play u (x.s.w.log.drop w0.log.length) = some x.t

/-- The combining marks of a text have no width. -/
def ThinMarks (u : UEnv) (s : List Char) : Prop := ∀ ch ∈ s, u.combining ch = true → u.w ch = 0

/-- Sizes the escape sequences can express. -/
def ScreenSize (z : Size) : Prop := GoodSize z ∧ z.lines ≤ 2 ^ 32 ∧ z.columns ≤ 2 ^ 32

/-- A step that draws no two-column characters. -/
def NarrowStep (u : UEnv) : SStep → Prop
  | .draw op => (∀ z, op ≠ .resize z) ∧ (∀ ch ∈ opText op, u.w ch ≠ 2) ∧ ThinMarks u (opText op)
  | .refresh => True
  | .resized size cell _ =>
    ScreenSize size ∧ Term.Paired { size := size, cell := cell, cur := none, last := none,
                                    attrs := .plain }

/-- No cell still covered on the terminal by the right half of a two-column character is about to
be uncovered with the same content that was last drawn there. -/
def NoReveal (u : UEnv) (x : Sess) : Prop :=
  x.s.clear = false → ∀ p, InBounds p x.t.size → x.t.cell p = .right → ¬ RightHalf u x.s.buf p →
    cellAt x.s.buf p ≠ x.s.buf.back[numOf x.s.buf.size p]?

/-- The conditions on a step of a session with two-column characters. -/
def WideStep (u : UEnv) (x : Sess) : SStep → Prop
  | .draw op => (∀ z, op ≠ .resize z) ∧ SafeOp u x.s.buf op ∧ ThinMarks u (opText op)
  | .refresh => NoReveal u x
  | .resized size cell _ =>
    ScreenSize size ∧ SafeOp u x.s.buf (.resize size) ∧
    Term.Paired { size := size, cell := cell, cur := none, last := none, attrs := .plain }

/-- Every step meets its conditions in the state it runs in. -/
def WideRun (u : UEnv) (env : WEnv) : Sess → List SStep → Prop
  | _, [] => True
  | x, st :: rest =>
    WideStep u x st ∧ ∀ r x', st.run u env x = some (r, x') → WideRun u env x' rest

/-- The number of refreshes that failed since the last resize event (`n` before these steps). -/
def failures : Nat → List SStep → List Bool → Nat
  | _, .resized .. :: ss, _ :: rs => failures 0 ss rs
  | n, _ :: ss, r :: rs => failures (if r then n else n + 1) ss rs
  | n, _, _ => n

end Mortal.Spec
