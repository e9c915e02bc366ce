import Verif.Spec.WinFail

/-!
# Specification: a screen on a Windows console that may change at any time

The visible buffer may change between any two calls of the screen and in the middle of a refresh, and
the program is told later, if ever. Until then the screen draws for a size the buffer no longer has.
-/

namespace Mortal.Spec

/-- The window shows a buffer from its top left corner down to its last line. -/
def WholeWindow (o : OutBuf) : Prop :=
  o.window.left = 0 ∧ o.window.top = 0 ∧ o.window.bottom + 1 = o.glyph.size.lines

/-- What a call may do to a console, also where `Con.step` has no result, as for text at the end of a
line: then any characters with any attributes are in the cells and the cursor is anywhere; the size,
the attributes for new text and a window that shows all lines stay, and the units of an unfinished
character wait for the rest of it. -/
def Con.May (u : UEnv) (k : Nat) (c : Con) (ev : WEv) (c' : Con) : Prop :=
  match c.step u k ev with
  | some c1 => c' = c1
  | none => ∃ h us n o o', ev = .call (.write h us) (.wrote n) ∧ c.outs h = some o ∧
      c' = c.setOut h o' ∧ o'.glyph.size = o.glyph.size ∧ o'.word = o.word ∧
      (WholeWindow o → o'.window = o.window) ∧
      ∀ s p, decode16 (o.pend ++ us.take n) = some (s, p) → o'.pend = p

/-- A sequence of events and calls, with what they may do. -/
def Con.Lives (u : UEnv) (k : Nat) : List WEv → Con → Con → Prop
  | [], c, c' => c' = c
  | e :: l, c, c' => c.Possible k e ∧ ∃ c1, c.May u k e c1 ∧ Lives u k l c1 c'

/-- The visible buffer becomes another one, all lines of which are visible, or stays. The attributes
for new text and the units of an unfinished character stay in any case. -/
def Con.Shifts (c c' : Con) : Prop :=
  c' = c ∨ ∃ o0 o q, c.outs c.active = some o0 ∧ c' = { c.setOut c.active o with queue := q } ∧
    o.word = o0.word ∧ o.pend = o0.pend ∧ ConSize o.glyph.size ∧ WholeWindow o

/-- A sequence of events and calls, with what they may do, while the visible buffer may change before
and after every one of them. -/
def Con.Shaken (u : UEnv) (k : Nat) : List WEv → Con → Con → Prop
  | [], c, c' => c.Shifts c'
  | e :: l, c, c' => ∃ c0, c.Shifts c0 ∧ c0.Possible k e ∧ ∃ c1, c0.May u k e c1 ∧ Shaken u k l c1 c'

/-- What happens to a screen and its console: a drawing call; a refresh that returns `Ok`; a refresh
that returns `Ok` while the visible buffer may change at any time; a refresh that fails, in which it
may change too; the visible buffer becomes another one, by the hand of the user or of another program; a size record
is received, no matter how old it is; anything that leaves alone the screen, its buffer on the console
and the attributes in effect, such as reading other events. -/
inductive LiveStep
  | draw (op : BufOp)
  | refresh
  | disturbed
  | failed
  | changed (o : OutBuf)
  | reported (size : Size)
  | other

/-- What a step may lead to. A refresh that fails makes only mild calls (see `MildCall`). -/
def LiveStep.To (u : UEnv) (t : WTerm) (x : WSess) : LiveStep → WSess → Prop
  | .draw op, y => (WinStep.draw op).To u t x y
  | .refresh, y => wsRefresh u t x.s = .ok () y.s ∧
      ∃ D, y.s.w.log = x.s.w.log ++ D ∧ x.c.Lives u t.inH D y.c
  | .disturbed, y => wsRefresh u t x.s = .ok () y.s ∧
      ∃ D, y.s.w.log = x.s.w.log ++ D ∧ x.c.Shaken u t.inH D y.c
  | .failed, y => (∃ e, wsRefresh u t x.s = .err e y.s) ∧
      ∃ D, y.s.w.log = x.s.w.log ++ D ∧ x.c.Shaken u t.inH D y.c ∧ ∀ ev ∈ D, MildCall ev
  | .changed o, y => y.s = x.s ∧ (∃ q, y.c = { x.c.setOut x.s.w.outH o with queue := q }) ∧
      ∃ o0, x.c.outs x.s.w.outH = some o0 ∧ o.word = o0.word ∧ o.pend = o0.pend
  | .reported size, y => wsUpdateSize size x.s = .ok () y.s ∧ y.c = x.c
  | .other, y => WinStep.other.To u t x y

/-- Whether the screen's knowledge of the console is current after a step from `x`, when `f` tells
whether it was before: not if the buffer changed (or may have) or a refresh failed; but again after a report of the
size the buffer really has. -/
def LiveStep.current (x : WSess) (f : Prop) : LiveStep → Prop
  | .changed _ | .disturbed | .failed => False
  | .reported size => ∃ o, x.c.outs x.s.w.outH = some o ∧ o.glyph.size = size
  | .draw _ | .refresh | .other => f

/-- A sequence of steps; `f` and `g` tell whether the screen's knowledge is current at the beginning
and at the end. -/
def LivePath (u : UEnv) (t : WTerm) : List LiveStep → WSess → Prop → WSess → Prop → Prop
  | [], x, f, y, g => y = x ∧ g = f
  | st :: rest, x, f, y, g => ∃ x', st.To u t x x' ∧ LivePath u t rest x' (st.current x f) y g

/-- The part of a step that changes what the screen is to show. -/
def LiveStep.asOp : LiveStep → Option BufOp
  | .draw op => some op
  | .reported size => some (.resize size)
  | .refresh | .disturbed | .failed | .changed _ | .other => none

/-- A step that draws no two-column characters; all lines of a changed buffer are visible. -/
def LiveStep.Narrow (u : UEnv) : LiveStep → Prop
  | .draw op => (∀ z, op ≠ .resize z) ∧ (∀ ch ∈ opText op, u.w ch ≠ 2) ∧ ThinMarks u (opText op)
  | .changed o => ConSize o.glyph.size ∧ WholeWindow o
  | .reported size => ConSize size
  | .refresh | .disturbed | .failed | .other => True

/-- The conditions on a step of a session with two-column characters. -/
def LiveStep.Wide (u : UEnv) (x : WSess) (f : Prop) : LiveStep → Prop
  | .draw op => (∀ z, op ≠ .resize z) ∧ SafeOp u x.s.buf op ∧ ThinMarks u (opText op)
  | .refresh => f → WNoReveal u x
  | .changed o => ConSize o.glyph.size ∧ WholeWindow o
  | .reported size => ConSize size ∧ SafeOp u x.s.buf (.resize size)
  | .disturbed | .failed | .other => True

/-- Every step meets its conditions in the state it runs in. -/
def LiveWideRun (u : UEnv) (t : WTerm) : WSess → Prop → List LiveStep → Prop
  | _, _, [] => True
  | x, f, st :: rest => st.Wide u x f ∧
      ∀ x', st.To u t x x' → LiveWideRun u t x' (st.current x f) rest

end Mortal.Spec
