import Verif.Spec.ScreenSession
import Verif.Spec.Signals

/-! # A screen and the size of the window (C61)

When the window changes its size the kernel sends SIGWINCH. Here the signal arrives with the change.
-/

namespace Mortal.Spec

/-- Whenever the window changes its size during a step, SIGWINCH arrives. -/
def WinchSent (s : US) : Prop := ∀ st ∈ s.sched, st.resize ≠ none → .winch ∈ st.before

/-- The last time the handler was called for SIGWINCH it was called for another signal next; that
signal was not among the first `n`. -/
def Superseded (n : Nat) (seen : List Sig) : Prop :=
  ∃ a g b, seen = a ++ .winch :: g :: b ∧ .winch ∉ g :: b ∧ n ≤ a.length + 1

/-- What happens: a call, or, between calls, the window takes a new size. -/
inductive SizeEv
  | call (op : ScrOp)
  | window (z : Size)

/-- A history: what happened, the results of calls, and the state at the end. -/
def runSize (u : UEnv) (env : REnv) : List SizeEv → SData → US → Option (List (ScrOp × URet) × SData × US)
  | [], d, s => some ([], d, s)
  | .window z :: es, d, s => runSize u env es d (deliver { s with size := z } .winch)
  | .call op :: es, d, s => do
    let (r, d, s) ← op.run u env d s
    let (rs, d, s) ← runSize u env es d s
    pure ((op, r) :: rs, d, s)

/-- The methods of a screen do not include a change of the buffer's size. -/
def SizeEv.Public : SizeEv → Prop
  | .call (.draw op) => ∀ z, op ≠ .resize z
  | .call (.guard ops) => ∀ z, .draw (.resize z) ∉ ops
  | _ => True

/-- A call of `read_event` or `read_raw`. -/
def Reading : ScrOp → Prop
  | .readEvent _ | .readRaw _ _ => True
  | _ => False

end Mortal.Spec
