import Verif.Spec.WinMode
import Verif.Spec.WinAttr

/-! # Specification: a screen on a Windows console, from its creation to its end -/

namespace Mortal.Spec

/-- A console that may exist: the visible buffer exists, nothing has the invalid handle or that of the
input, and buffers are not larger than coordinates can say. -/
structure Con.Sane (k : Nat) (c : Con) : Prop where
  active : ∃ o, c.outs c.active = some o
  invalid : c.outs invalidHandle = none
  input : c.outs k = none
  small : ∀ h o, c.outs h = some o → o.glyph.size.lines ≤ 32767 ∧ o.glyph.size.columns ≤ 32767

/-- Only the contents of the screen buffer `h` and the records waiting may differ. -/
structure SameElse (h : Nat) (c c' : Con) : Prop where
  inMode : c'.inMode = c.inMode
  handlers : c'.handlers = c.handlers
  active : c'.active = c.active
  outs : ∀ j, j ≠ h → c'.outs j = c.outs j
  exist : (c'.outs h).isSome = (c.outs h).isSome

/-- What remains of a screen buffer when a terminal has been dropped: its mode is the one it had when
the terminal was opened, and its cursor is visible and of the usual size. -/
def OutBuf.released (t : WTerm) (o : OutBuf) : OutBuf :=
  { o with mode := t.oldOut, shape := (25, true) }

end Mortal.Spec
