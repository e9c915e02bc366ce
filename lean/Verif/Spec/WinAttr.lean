import Verif.Spec.Console
import Verif.Spec.Win
import Verif.Model.WinScreen

/-! # Specification: the attributes in effect on a Windows console -/

namespace Mortal.Spec

/-- The calls that change the attributes. -/
inductive AttrOp
  | fg (c : Option Color)
  | bg (c : Option Color)
  | style (s : Style)
  | add (s : Style)
  | remove (s : Style)
  | theme (th : Theme)
  | clear

/-- The call. -/
def AttrOp.run (t : WTerm) : AttrOp → WM Unit
  | .fg c => winSetFg t c
  | .bg c => winSetBg t c
  | .style s => winSetStyle t s
  | .add s => winAddStyle t s
  | .remove s => winRemoveStyle t s
  | .theme th => winSetAttributes t th
  | .clear => winClearAttributes t

/-- `th'` is what should be in effect after the call if `th` was before, style by style. -/
def AttrOp.Makes (th : Theme) : AttrOp → Theme → Prop
  | .fg c, th' => th'.fg = c ∧ th'.bg = th.bg ∧ th'.style = th.style
  | .bg c, th' => th'.bg = c ∧ th'.fg = th.fg ∧ th'.style = th.style
  | .style s, th' => th'.style = s ∧ th'.fg = th.fg ∧ th'.bg = th.bg
  | .add s, th' => th'.fg = th.fg ∧ th'.bg = th.bg ∧
      ∀ i, th'.style.getLsbD i = (th.style.getLsbD i || s.getLsbD i)
  | .remove s, th' => th'.fg = th.fg ∧ th'.bg = th.bg ∧
      ∀ i, th'.style.getLsbD i = (th.style.getLsbD i && !s.getLsbD i)
  | .theme x, th' => th' = x
  | .clear, th' => th'.fg = none ∧ th'.bg = none ∧ ∀ i, th'.style.getLsbD i = false

/-- A sequence of calls. -/
def runAttrs (t : WTerm) : List AttrOp → WM Unit
  | [] => pure ()
  | op :: l => do
    op.run t
    runAttrs t l

/-- What a sequence of calls should have put into effect. -/
inductive Become : Theme → List AttrOp → Theme → Prop
  | nil (th : Theme) : Become th [] th
  | cons {a b c : Theme} {op : AttrOp} {l : List AttrOp} : op.Makes a b → Become b l c →
      Become a (op :: l) c

/-- Characters written to the screen buffer now would look as the theme asks for. -/
def InEffect (t : WTerm) (c : Con) (h : Nat) (th : Theme) : Prop :=
  ∃ o, c.outs h = some o ∧ lookOf o.word = wantedLook t.defAttrs th.fg th.bg th.style

/-- Nothing of the console differs but the records waiting and the attribute word of one buffer. -/
def OnlyWord (h : Nat) (c c' : Con) : Prop :=
  c'.inMode = c.inMode ∧ c'.handlers = c.handlers ∧ c'.active = c.active ∧
  (∀ j, j ≠ h → c'.outs j = c.outs j) ∧
  ∃ o o', c.outs h = some o ∧ c'.outs h = some o' ∧ o' = { o with word := o'.word }

end Mortal.Spec
