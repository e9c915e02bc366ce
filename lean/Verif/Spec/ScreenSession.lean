import Verif.Model.ScreenUnix
import Verif.Spec.Prepare
import Verif.Spec.Screen

/-! # Screen sessions: opening, use, and drop (C37, C48) -/

namespace Mortal.Spec

/-- Whether the alternate screen is in use after a sequence of outputs. -/
def altScreen (log : List Out) : Bool :=
  log.foldl (fun b o => match o with
    | .cap .enterCaMode _ => true
    | .cap .exitCaMode _ => false
    | _ => b) false

/-- The cursor mode most recently asked for, if any. -/
def cursorModeOf (log : List Out) : Option CursorMode :=
  log.foldl (fun b o => match o with
    | .cap .cursorNormal _ => some .normal
    | .cap .cursorInvisible _ => some .invisible
    | _ => b) none

/-- The public methods of a screen, and the use of a write guard. (A screen offers no `resize`; the
buffer changes size when a resize event is read.) -/
inductive ScrOp
  | draw (op : BufOp)
  | refresh
  | setCursorMode (m : CursorMode)
  | guard (ops : List GOp)
  | waitEvent (timeout : Option Nat)
  | readEvent (timeout : Option Nat)
  | readRaw (len : Nat) (timeout : Option Nat)

/-- The program's view of a method of the write guard. -/
def wret (s : US) : Outcome Scr → Option (URet × SData × US)
  | .ok x => some (.unit, x.toSData, { s with w := x.w })
  | .err e x => some (.err e, x.toSData, { s with w := x.w })
  | .stop _ => none

/-- The program's view of a method that returns the screen's data, too. -/
def rret {α : Type} (f : α → URet) (d : SData) : Res (α × SData) → Option (URet × SData × US)
  | .ok (a, d') s => some (f a, d', s)
  | .err e s => some (.err e, d, s)
  | .stop _ => none

/-- One call on a screen with data `d`. -/
def ScrOp.run (u : UEnv) (env : REnv) (d : SData) (s : US) : ScrOp → Option (URet × SData × US)
  | .draw op => (op.run u d.buf).map fun b => (.unit, { d with buf := b }, s)
  | .refresh => wret s (refreshCall u env.w { d with w := s.w })
  | .setCursorMode m => (ret (fun _ => .unit) (termCursorMode env m s)).map fun (r, s) => (r, d, s)
  | .guard ops => wret s (guardSession u env.w ops { d with w := s.w })
  | .waitEvent t => (ret .flag (Mortal.waitEvent env t s)).map fun (r, s) => (r, d, s)
  | .readEvent t => rret .event d (screenReadEvent env t d s)
  | .readRaw n t => rret InRes.ret d (screenReadRaw env n t d s)

/-- A history of calls on a screen: all results, and the state at the end. -/
def runScr (u : UEnv) (env : REnv) : List ScrOp → SData → US → Option (List URet × SData × US)
  | [], d, s => some ([], d, s)
  | op :: ops, d, s => do
    let (r, d, s) ← op.run u env d s
    let (rs, d, s) ← runScr u env ops d s
    pure (r :: rs, d, s)

/-- From here on no system call fails, and the device accepts what it is given. -/
def NoFailures (s : US) : Prop :=
  (∀ st ∈ s.sched, ∃ n, st.res = .ok n) ∧ ∀ r ∈ s.w.os, r = .all ∨ r = .eintr

/-- All capabilities the database has can be expanded. -/
def GoodDB (env : WEnv) : Prop := ∀ c f, env.db c = some f → ∀ ps, (f ps).2 = true

/-- Buffer `b'` is `b` resized to `z`: positions that exist in both keep their cells, new ones are
blank, cursor and attributes stay. -/
def ResizedTo (b b' : Buf) (z : Size) : Prop :=
  b'.size = z ∧ b'.cursor = b.cursor ∧ (b'.fg, b'.bg, b'.style) = (b.fg, b.bg, b.style) ∧
  ∀ p, InBounds p z →
    cellAt b' p = if InBounds p b.size then cellAt b p else some ⟨none, none, 0#8, [' ']⟩

end Mortal.Spec
