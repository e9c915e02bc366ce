import Verif.Spec.Live

/-!
# Calls with two-column characters on a live screen (C59, C69)

The conditions under which two-column characters do no harm. They speak of the screen's data only, so a
program that keeps to them need not know what the terminal shows.
-/

namespace Mortal.Spec

/-- By the screen's records of what it drew last, the cell to the left of `p` shows a two-column
character. -/
def CoveredBefore (u : UEnv) (b : Buf) (p : Cursor) : Prop :=
  0 < p.column ∧ ∃ c, b.back[numOf b.size ⟨p.line, p.column - 1⟩]? = some c ∧ HoldsWide u c

/-- No cell that a two-column character to its left may cover on the terminal is about to be uncovered
with the same content that was last drawn there. -/
def NothingStale (u : UEnv) (d : SData) : Prop :=
  d.clear = false → ∀ p, InBounds p d.buf.size → CoveredBefore u d.buf p → ¬ RightHalf u d.buf p →
    cellAt d.buf p ≠ d.buf.back[numOf d.buf.size p]?

/-- A drawing call that writes no character where it does not fit. -/
def WideDraw (u : UEnv) (b : Buf) (op : BufOp) : Prop :=
  (∀ z, op ≠ .resize z) ∧ SafeOp u b op ∧ ThinMarks u (opText op)

/-- The condition on a call of a write guard. -/
def WideGOp (u : UEnv) (s : Scr) : GOp → Prop
  | .draw op => WideDraw u s.buf op
  | .refresh => NothingStale u s.toSData
  | .setCursorMode _ => True

/-- The calls of a write guard meet their conditions, and so does the refresh when it is dropped. -/
def WideGuard (u : UEnv) (env : WEnv) : List GOp → Scr → Prop
  | [], s => NothingStale u s.toSData
  | op :: ops, s => WideGOp u s op ∧ ∀ s', op.run u env s = .ok s' → WideGuard u env ops s'

/-- The condition on a call of the screen with data `d` that gave the result `r`: a reported size must
not cut a two-column character in half. -/
def WideCall (u : UEnv) (env : REnv) (d : SData) (s : US) : ScrOp → URet → Prop
  | .draw op, _ => WideDraw u d.buf op
  | .refresh, _ => NothingStale u d
  | .guard ops, _ => WideGuard u env.w ops { d with w := s.w }
  | _, .event (some (.resize z)) => SafeOp u d.buf (.resize z)
  | _, _ => True

/-- Every call of a history meets its condition. -/
def WideHist (u : UEnv) (env : REnv) : SData → US → List LiveEv → Prop
  | _, _, [] => True
  | d, s, .call op r _ :: es =>
    WideCall u env d s op r ∧ ∀ d' s', op.run u env d s = some (r, d', s') → WideHist u env d' s' es
  | d, s, .window z :: es => WideHist u env d { s with size := z } es

end Mortal.Spec
