import Verif.Spec.PortableInput
import Verif.Spec.Portable
import Verif.Spec.WinLive
import Verif.Spec.VtLive

/-! # Programs that draw what their user does -/

namespace Mortal.Spec
open Mortal

/-- What happens at a Windows console: the program makes a call, which returns `r`; the visible buffer
becomes another one, by the hand of the user or of another program. -/
inductive ConEv
  | call (op : WScrOp) (r : Option Event)
  | window (o : OutBuf)

/-- The call. -/
def ConEv.op : ConEv → Option WScrOp
  | .call op _ => some op
  | .window _ => none

/-- The event the program is told. -/
def ConEv.tells : ConEv → List Event
  | .call _ r => r.toList
  | .window _ => []

/-- What it asks a screen to show. -/
def ConEv.asked : ConEv → List BufOp
  | .call (.draw op) _ => [op]
  | .call (.guard ops) _ => ops.filterMap GOp.asked
  | .call (.readEvent _) (some (.resize z)) => [.resize z]
  | _ => []

/-- Whether the screen knows the size of its buffer afterwards: after a report of the right one. -/
def ConEv.current (x : WSess) (f : Prop) : ConEv → Prop
  | .call (.readEvent _) (some (.resize z)) => ∃ o, x.c.outs x.s.w.outH = some o ∧ o.glyph.size = z
  | .call _ _ => f
  | .window _ => False

/-- A call that leaves the visibility of the cursor alone and draws with calls of kind `K`; a guard is
held for drawing only, and the refresh when it is dropped succeeds. -/
def WScrOp.FineBy (K : BufOp → Prop) (u : UEnv) (t : WTerm) (s : WScr) : WScrOp → Prop
  | .draw op => K op
  | .guard gs => ∃ ops b s', gs = ops.map GOp.draw ∧ (∀ op ∈ ops, K op) ∧
      runOps u ops s.buf = some b ∧ wsRefresh u t { s with buf := b } = .ok () s'
  | .setCursorMode _ => False
  | _ => True

/-- A history on a Windows console; all calls return `Ok`. The console does what `Con.Lives` says (any
text may be on it while the screen draws for a wrong size). `f` and `g` tell whether the screen knows the
size of the console in the beginning and in the end. -/
inductive WHistBy (K : BufOp → Prop) (u : UEnv) (t : WTerm) : WSess → Prop → List ConEv → WSess → Prop → Prop
  | done (x : WSess) (f : Prop) : WHistBy K u t x f [] x f
  | call {x y : WSess} {f g : Prop} {op : WScrOp} {r : Option Event} {s : WScr} {c : Con} {D : List WEv}
      {es : List ConEv} :
      op.FineBy K u t x.s → op.run u t x.s = .ok r s → s.w.log = x.s.w.log ++ D → x.c.Lives u t.inH D c →
      WHistBy K u t ⟨s, c⟩ ((ConEv.call op r).current x f) es y g → WHistBy K u t x f (.call op r :: es) y g
  | window {x y : WSess} {f g : Prop} {o0 o : OutBuf} {es : List ConEv} :
      x.c.outs x.s.w.outH = some o0 → o.word = o0.word → o.pend = o0.pend → ConSize o.glyph.size →
      WholeWindow o → WHistBy K u t { x with c := x.c.setOut x.s.w.outH o } False es y g →
      WHistBy K u t x f (.window o :: es) y g

/-- A call that draws no two-column characters. -/
abbrev WScrOp.Fine (u : UEnv) (t : WTerm) (s : WScr) (op : WScrOp) : Prop := op.FineBy (NarrowDraw u) u t s

/-- A history without two-column characters. -/
abbrev WHist (u : UEnv) (t : WTerm) : WSess → Prop → List ConEv → WSess → Prop → Prop := WHistBy (NarrowDraw u) u t

/-- A drawing call that programs can make: the size is not theirs to change. -/
def OwnDraw (op : BufOp) : Prop := ∀ z, op ≠ .resize z

/-- What happens at a console as steps of `Spec/WinLive.lean`. -/
def ConEv.steps : ConEv → List LiveStep
  | .call (.draw op) _ => [.draw op]
  | .call .refresh _ => [.refresh]
  | .call (.guard gs) _ => (gs.filterMap GOp.asked).map .draw ++ [.refresh]
  | .call (.readEvent _) (some (.resize z)) => [.reported z, .other]
  | .call _ _ => [.other]
  | .window o => [.changed o]

/-- What a program draws when it has been told of certain events: everything it has asked for until then,
beginning with an empty screen; a change of size, when it is told, is part of it. -/
abbrev Paints := List Event → List BufOp

/-- A program that draws the same, whatever signals and sizes it is told. -/
def OfUser (paint : Paints) : Prop := ∀ l, paint l = paint (fromUser l)

/-- The events that calls on Unix have returned. -/
def eventsOf : List URet → List Event
  | [] => []
  | .event (some e) :: r => e :: eventsOf r
  | _ :: r => eventsOf r

end Mortal.Spec
