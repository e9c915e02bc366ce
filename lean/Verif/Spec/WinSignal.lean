import Verif.Spec.Console
import Verif.Spec.WinAttr

/-! # What should become of console control events -/

namespace Mortal.Spec

/-- The signal of a console control event: `CTRL_C_EVENT` is 0, `CTRL_BREAK_EVENT` is 1. -/
def sigOfType (t : BitVec 32) : Option Signal :=
  if t = 0 then some .interrupt else if t = 1 then some .break else none

/-- What is seen from outside: events and calls, and signals reported to the user of the library. -/
inductive Note
  | ev (e : WEv)
  | report (sig : Signal)
deriving DecidableEq

/-- Bookkeeping of signals, from the one handled but not reported yet: a signal that is handled takes
the place of an older one; what is reported is the signal kept, which is then gone. No result if
anything else is reported. -/
def account : Option Signal → List Note → Option (Option Signal)
  | p, [] => some p
  | _, .ev (.ctrl t true _) :: l => account (sigOfType t) l
  | p, .ev _ :: l => account p l
  | p, .report s :: l => if p = some s then account none l else none

/-- Calls made on a terminal. -/
inductive SigOp
  | wait (timeout : Option Duration)
  | readEvent (timeout : Option Duration)
  | readRaw (len : Nat) (timeout : Option Duration)
  | readRawEvent (len : Nat) (timeout : Option Duration)
  | prepare (cfg : PrepareConfig)
  | restore (st : WinPrepared)
  | write (text : List Char)
  | attr (op : AttrOp)
  | moveTo (p : Cursor)
  | moveBy (off : Coord)
  | clearScreen
  | clearLine
  | clearRest
  | cursorMode (m : CursorMode)

/-- The call, and the event it returns, if any. -/
def SigOp.run (t : WTerm) : SigOp → WM (Option Event)
  | .wait d => do let _ ← winWait t d; pure none
  | .readEvent d => winReadEvent t d
  | .readRaw n d => do let r ← winReadRaw t n d; pure r.1
  | .readRawEvent n d => do let r ← winReadRawEvent t n d; pure r.1
  | .prepare cfg => do let _ ← winPrepare t cfg; pure none
  | .restore st => do winRestore t st; pure none
  | .write text => do winWriteStr text; pure none
  | .attr op => do op.run t; pure none
  | .moveTo p => do winMoveCursor p; pure none
  | .moveBy off => do moveRel off; pure none
  | .clearScreen => do winClearScreen t; pure none
  | .clearLine => do winClearToLineEnd t; pure none
  | .clearRest => do winClearToScreenEnd t; pure none
  | .cursorMode m => do winCursorMode m; pure none

/-- What was recorded between two states. -/
def between (s s' : WinSt) : List Note := (s'.log.drop s.log.length).map .ev

/-- The signal an event is about. -/
def reportOf : Option Event → List Note
  | some (.signal sig) => [.report sig]
  | _ => []

/-- Calls one after the other, whether they succeed or fail: what is seen, and the state at the end. No
result if a call does not return. -/
def session (t : WTerm) : List SigOp → WinSt → Option (List Note × WinSt)
  | [], s => some ([], s)
  | op :: l, s =>
    match op.run t s with
    | .ok r s' => (session t l s').map fun (n, s'') => (between s s' ++ reportOf r ++ n, s'')
    | .err _ s' => (session t l s').map fun (n, s'') => (between s s' ++ n, s'')
    | .stop _ => none

/-- A control event was handled exactly if its signal was asked for. -/
def Note.HandledBy (set : SignalSet) : Note → Prop
  | .ev (.ctrl t handled _) => handled = true ↔ ∃ sig, sigOfType t = some sig ∧ set.contains sig = true
  | _ => True

/-- A call of `prepare`. -/
def SigOp.IsPrepare : SigOp → Prop
  | .prepare _ => True
  | _ => False

/-- The records are of events and of accesses to the variables of the signal handler only. -/
def NoWait : WEv → Prop
  | .call .atomic _ => True
  | .call _ _ => False
  | _ => True

/-- The records of input arriving, and of the control handler waking up the reader. -/
def Fills : WEv → Prop
  | .ctrl _ _ woke => woke = true
  | .input _ => True
  | .call _ _ => False

/-- The calls that read. -/
def SigOp.IsRead : SigOp → Prop
  | .readEvent _ => True
  | .readRaw _ _ => True
  | .readRawEvent _ _ => True
  | _ => False

/-- Is the record a key being pressed? -/
def isPress : InRec → Bool
  | .key k => k.down
  | _ => false

/-- A configuration asking for `Signal::Interrupt`. -/
def catchInt : PrepareConfig := { PrepareConfig.default with reportSignals := SignalSet.fromList [.interrupt] }

end Mortal.Spec
