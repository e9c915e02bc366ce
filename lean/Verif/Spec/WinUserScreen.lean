import Verif.Spec.WinUser
import Verif.Model.WinScreen

/-! # What the user does at a Windows console with a screen (C73) -/

namespace Mortal.Spec

/-- Calls on a screen, except for reading raw input. -/
inductive WScrOp
  | draw (op : BufOp)
  | refresh
  | setCursorMode (m : CursorMode)
  | guard (ops : List GOp)
  | waitEvent (timeout : Option Duration)
  | readEvent (timeout : Option Duration)

/-- The methods of a screen do not include a change of the buffer's size. -/
def WScrOp.Public : WScrOp → Prop
  | .draw op => ∀ z, op ≠ .resize z
  | .guard ops => ∀ z, .draw (.resize z) ∉ ops
  | _ => True

/-- A call: the event it returns, if any. -/
def WScrOp.run (u : UEnv) (t : WTerm) : WScrOp → SWM (Option Event)
  | .draw op => wsCall u t (.draw op) >>= fun _ => pure none
  | .refresh => wsRefreshCall u t >>= fun _ => pure none
  | .setCursorMode m => onT (winCursorMode m) >>= fun _ => pure none
  | .guard ops => wsGuardSession u t ops >>= fun _ => pure none
  | .waitEvent d => onT (winWait t d) >>= fun _ => pure none
  | .readEvent d => wsReadEvent t d

/-- Calls one after the other, whether they succeed or fail: the events returned, and the screen in the
end. No result if a call does not return. -/
def wsCallsMade (u : UEnv) (t : WTerm) : List WScrOp → WScr → Option (List Event × WScr)
  | [], s => some ([], s)
  | op :: l, s =>
    match op.run u t s with
    | .ok r s' => (wsCallsMade u t l s').map fun (n, s'') => (r.toList ++ n, s'')
    | .err _ s' => wsCallsMade u t l s'
    | .stop _ => none

/-- What the events tell, apart from `NoEvent` and signals. -/
def told (l : List Event) : List Event :=
  l.filter fun
    | .noEvent | .signal _ => false
    | _ => true

/-- The last size told, if any. -/
def lastSize (z : Size) : List Event → Size
  | [] => z
  | .resize w :: l => lastSize w l
  | _ :: l => lastSize z l

end Mortal.Spec
