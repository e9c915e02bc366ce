import Verif.Spec.WinShow

/-! # Specification: sessions of a screen on a Windows console in which refreshes fail -/

namespace Mortal.Spec

/-- A call that may be part of a failed refresh without further harm: the attributes are not refused,
and text is taken whole or not at all. -/
def MildCall : WEv → Prop
  | .call (.setAttr _ _) a => a ≠ .fail
  | .call (.write _ us) (.wrote n) => (n = us.length ∧ us.length < 0xFFFFFFFF) ∨ n = 0
  | _ => True

/-- A step of a session; or a refresh that fails. -/
inductive TryStep
  | did (st : WinStep)
  | failed

/-- A refresh fails in `x` after the calls of `D`, and leads to `y`. -/
def RefreshFails (u : UEnv) (t : WTerm) (D : List WEv) (x y : WSess) : Prop :=
  (∃ e, wsRefresh u t x.s = .err e y.s) ∧ y.s.w.log = x.s.w.log ++ D ∧ x.c.Runs u t.inH D ∧
    x.c.play u t.inH D = some y.c

/-- What a step may lead to. A failed refresh makes only calls as above; if a resize was pending, it
fails while the console is cleared. -/
def TryStep.To (u : UEnv) (t : WTerm) (x : WSess) : TryStep → WSess → Prop
  | .did st, y => st.To u t x y
  | .failed, y => ∃ D, RefreshFails u t D x y ∧ (∀ ev ∈ D, MildCall ev) ∧ y.s.clear = x.s.clear

/-- A sequence of steps. -/
def TryStep.Path (u : UEnv) (t : WTerm) : List TryStep → WSess → WSess → Prop
  | [], x, y => y = x
  | st :: rest, x, y => ∃ x', st.To u t x x' ∧ Path u t rest x' y

/-- The part of a step that changes what the screen is to show. -/
def TryStep.asOp : TryStep → Option BufOp
  | .did st => st.asOp
  | .failed => none

/-- A step that draws no two-column characters. -/
def TryStep.Narrow (u : UEnv) : TryStep → Prop
  | .did st => WNarrow u st
  | .failed => True

/-- The number of refreshes that failed since the last resize, when `n` did before. -/
def failedSince (n : Nat) : List TryStep → Nat
  | [] => n
  | .failed :: rest => failedSince (n + 1) rest
  | .did (.resized _ _) :: rest => failedSince 0 rest
  | .did _ :: rest => failedSince n rest

/-- A console buffer shows a screen's buffer that has no two-column characters, at all places but
some. -/
def ConShowsBut (u : UEnv) (default : BitVec 16) (o : OutBuf) (b : Buf) (bad : List Cursor) : Prop :=
  o.glyph.size = b.size ∧ ∀ p c, InBounds p b.size → p ∉ bad → cellAt b p = some c →
    o.glyph.cell p = glyphOf u c ∧ Dressed default (o.attr p) c

end Mortal.Spec
