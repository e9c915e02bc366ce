import Verif.Spec.WinSession

/-!
# Specification: what a screen shows on a Windows console

The console is the one of `Spec/Console.lean`; the buffer `b` a screen is to show is what its drawing
calls and resizes alone produce, as in `Spec/Screen.lean`.
-/

namespace Mortal.Spec

/-- A screen and the console it is on. -/
structure WSess where
  s : WScr
  c : Con

/-- What happens to a screen and its console: a drawing call; a refresh; a size record is received,
after which the screen buffer is as given; anything that leaves alone the screen, its buffer on the
console and the attributes in effect (such as reading other events, see `C47_read_other`). -/
inductive WinStep
  | draw (op : BufOp)
  | refresh
  | resized (size : Size) (o : OutBuf)
  | other

/-- What a step may lead to. Refreshes are those that return `Ok`. -/
def WinStep.To (u : UEnv) (t : WTerm) (x : WSess) : WinStep → WSess → Prop
  | .draw op, y => ∃ b, op.run u x.s.buf = some b ∧ y = { x with s := { x.s with buf := b } }
  | .refresh, y => wsRefresh u t x.s = .ok () y.s ∧
      ∃ D, y.s.w.log = x.s.w.log ++ D ∧ x.c.Runs u t.inH D ∧ x.c.play u t.inH D = some y.c
  | .resized size o, y => wsUpdateSize size x.s = .ok () y.s ∧ y.c = x.c.setOut x.s.w.outH o ∧
      o.glyph.size = size ∧ ∃ o0, x.c.outs x.s.w.outH = some o0 ∧ o.word = o0.word ∧ o.pend = o0.pend
  | .other, y => y.s.toSData = x.s.toSData ∧ y.s.w.outH = x.s.w.outH ∧ y.s.w.theme = x.s.w.theme ∧
      y.c.active = x.c.active ∧ y.c.outs x.s.w.outH = x.c.outs x.s.w.outH

/-- A sequence of steps. -/
def WinStep.Path (u : UEnv) (t : WTerm) : List WinStep → WSess → WSess → Prop
  | [], x, y => y = x
  | st :: rest, x, y => ∃ x', st.To u t x x' ∧ Path u t rest x' y

/-- The part of a step that changes what the screen is to show. -/
def WinStep.asOp : WinStep → Option BufOp
  | .draw op => some op
  | .resized size _ => some (.resize size)
  | .refresh | .other => none

/-- A screen just opened on a console whose visible buffer has the attributes the terminal started
with. -/
def WOpened (u : UEnv) (t : WTerm) (cfg : PrepareConfig) (size : Size) (x : WSess) : Prop :=
  ∃ (c0 : Con) (s0 : WinSt) (old : WScreen) (oa oz : OutBuf) (D : List WEv),
    c0.Sane t.inH ∧ s0.theme = plainTheme ∧ c0.outs c0.active = some oa ∧ oa.word = t.defAttrs ∧
    c0.outs s0.outH = some oz ∧ oz.glyph.size = size ∧
    winScreenNew t cfg s0 = .ok (old, x.s.toSData) x.s.w ∧ x.s.w.log = s0.log ++ D ∧
    c0.Runs u t.inH D ∧ c0.play u t.inH D = some x.c

/-- A size console coordinates can express. -/
def ConSize (z : Size) : Prop := GoodSize z ∧ z.lines ≤ 32767 ∧ z.columns ≤ 32767

/-- A buffer the user or the system may leave when its size changes: no halves of characters, and all
of it visible from the top left corner down to the last line. -/
def WholeBuffer (o : OutBuf) : Prop :=
  ConSize o.glyph.size ∧ o.glyph.Paired ∧
  o.window.left = 0 ∧ o.window.top = 0 ∧ o.window.bottom + 1 = o.glyph.size.lines

/-- A step that draws no two-column characters. -/
def WNarrow (u : UEnv) : WinStep → Prop
  | .draw op => (∀ z, op ≠ .resize z) ∧ (∀ ch ∈ opText op, u.w ch ≠ 2) ∧ ThinMarks u (opText op)
  | .resized _ o => WholeBuffer o
  | .refresh | .other => True

/-- No cell still covered on the console by the right half of a two-column character is about to be
uncovered with the same content that was last drawn there. -/
def WNoReveal (u : UEnv) (x : WSess) : Prop :=
  x.s.clear = false → ∀ o, x.c.outs x.s.w.outH = some o →
    ∀ p, InBounds p o.glyph.size → o.glyph.cell p = .right → ¬ RightHalf u x.s.buf p →
      cellAt x.s.buf p ≠ x.s.buf.back[numOf x.s.buf.size p]?

/-- The conditions on a step of a session with two-column characters. -/
def WWide (u : UEnv) (x : WSess) : WinStep → Prop
  | .draw op => (∀ z, op ≠ .resize z) ∧ SafeOp u x.s.buf op ∧ ThinMarks u (opText op)
  | .refresh => WNoReveal u x
  | .resized size o => SafeOp u x.s.buf (.resize size) ∧ WholeBuffer o
  | .other => True

/-- Every step meets its conditions in the state it runs in. -/
def WWideRun (u : UEnv) (t : WTerm) : WSess → List WinStep → Prop
  | _, [] => True
  | x, st :: rest => WWide u x st ∧ ∀ x', st.To u t x x' → WWideRun u t x' rest

open Classical in
/-- The characters a buffer cell puts into its place. -/
noncomputable def glyphOf (u : UEnv) (c : Cell) : TCell Unit :=
  if HoldsWide u c then .left c.text () else .narrow c.text ()

/-- A cell of the console looks as the attributes of a buffer cell ask for. -/
def Dressed (default word : BitVec 16) (c : Cell) : Prop :=
  lookOf word = wantedLook default c.fg c.bg c.style

/-- The console buffer shows the screen: every cell with its text and attributes; cells covered by a
two-column character show its right half, with its attributes. -/
def ConShows (u : UEnv) (default : BitVec 16) (o : OutBuf) (b : Buf) : Prop :=
  o.glyph.size = b.size ∧
  ∀ p c, InBounds p b.size → cellAt b p = some c →
    (¬ RightHalf u b p → o.glyph.cell p = glyphOf u c ∧ Dressed default (o.attr p) c) ∧
    (RightHalf u b p → o.glyph.cell p = .right ∧
      ∀ l, cellAt b ⟨p.line, p.column - 1⟩ = some l → Dressed default (o.attr p) l)

end Mortal.Spec
