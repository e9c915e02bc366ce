import Verif.Spec.WinSignal
import Verif.Spec.WinUserScreen

/-! # The handles a program uses on Windows (C76)

The life of one terminal, from `Terminal::new` to the end of the terminal, or of the screen made of
it; and the handles that are open on the way, which is read off the calls of the console alone. -/

namespace Mortal.Spec

/-- The handle a call of the console is given, if any. -/
def handleUsed : ConCall → Option Nat
  | .getStd _ => none
  | .getMode h => some h
  | .setMode h _ => some h
  | .setCtrlHandler _ => none
  | .getInfo h => some h
  | .setAttr h _ => some h
  | .setCursorPos h _ => some h
  | .setCursorInfo h _ _ => some h
  | .write h _ => some h
  | .fillAttr h _ _ _ => some h
  | .fillChar h _ _ _ => some h
  | .setWindow h _ => some h
  | .scroll h _ _ => some h
  | .create => none
  | .setBufSize h _ => some h
  | .setActive h => some h
  | .close h => some h
  | .wait h _ => some h
  | .readInput h _ => some h
  | .readConsole h _ => some h
  | .atomic => none

/-- The handles open: those the system lends (`GetStdHandle`), and the screen buffers made and not
closed yet. -/
structure Handles where
  lent : List Nat
  own : List Nat
deriving DecidableEq

/-- What a call does to them. No result if the call is given a handle that is not open, or closes one
that was not made. The null handle and the invalid handle stand for failure. -/
def Handles.step (k : Handles) : WEv → Option Handles
  | .call (.getStd _) (.handle h) =>
    some (if h = 0 ∨ h = invalidHandle then k else { k with lent := h :: k.lent })
  | .call .create (.handle h) =>
    some (if h = 0 ∨ h = invalidHandle then k else { k with own := h :: k.own })
  | .call (.close h) a =>
    if h ∈ k.own then some (if a = .ok then { k with own := k.own.erase h } else k) else none
  | .call c _ =>
    match handleUsed c with
    | some h => if h ∈ k.lent ∨ h ∈ k.own then some k else none
    | none => some k
  | _ => some k

/-- The handles after some calls. -/
def Handles.follow : Handles → List WEv → Option Handles
  | k, [] => some k
  | k, e :: l =>
    match k.step e with
    | some k' => k'.follow l
    | none => none

/-- The system never answers with the invalid handle. -/
def NeverInvalid (l : List WEv) : Prop := ∀ c h, WEv.call c (.handle h) ∈ l → h ≠ invalidHandle

/-- Nothing is open. -/
def Handles.nothing : Handles := ⟨[], []⟩

/-- Calls on a screen. -/
inductive ScrUse
  | plain (op : WScrOp)
  | readRaw (len : Nat) (timeout : Option Duration)
  | readRawEvent (len : Nat) (timeout : Option Duration)

/-- The call. -/
def ScrUse.run (u : UEnv) (t : WTerm) : ScrUse → SWM Unit
  | .plain op => op.run u t >>= fun _ => pure ()
  | .readRaw n d => wsReadRaw t n d >>= fun _ => pure ()
  | .readRawEvent n d => wsReadRawEvent t n d >>= fun _ => pure ()

/-- Calls on a terminal, whether they succeed or fail. No result if one does not return. -/
def termUses (t : WTerm) : List SigOp → WinSt → Option WinSt
  | [], s => some s
  | op :: l, s =>
    match op.run t s with
    | .ok _ s' => termUses t l s'
    | .err _ s' => termUses t l s'
    | .stop _ => none

/-- Calls on a screen, whether they succeed or fail. No result if one does not return. -/
def scrUses (u : UEnv) (t : WTerm) : List ScrUse → WScr → Option WScr
  | [], s => some s
  | op :: l, s =>
    match op.run u t s with
    | .ok _ s' => scrUses u t l s'
    | .err _ s' => scrUses u t l s'
    | .stop _ => none

/-- A terminal is dropped. -/
def termEnd (t : WTerm) (s : WinSt) : Option WinSt :=
  match winTermDrop t s with
  | .ok _ s' => some s'
  | .err _ s' => some s'
  | .stop _ => none

/-- A screen is dropped. -/
def screenEnd (t : WTerm) (x : WScreen) (s : WinSt) : Option WinSt :=
  match winScreenDrop t x s with
  | .ok _ s' => some s'
  | .err _ s' => some s'
  | .stop _ => none

/-- `Screen::new` is called with a terminal; if this succeeds the screen is used and dropped. -/
def screenLife (u : UEnv) (t : WTerm) (cfg : PrepareConfig) (uses : List ScrUse) (s : WinSt) :
    Option WinSt :=
  match winScreenNew t cfg s with
  | .ok (x, d) s1 => (scrUses u t uses { toSData := d, w := s1 }).bind fun s2 => screenEnd t x s2.w
  | .err _ s1 => some s1
  | .stop _ => none

/-- A terminal's whole life: it is made for standard output or standard error, used, and either
dropped or made into a screen, which is used and dropped. -/
def wholeLife (u : UEnv) (out : Nat) (ops : List SigOp) (scr : Option (PrepareConfig × List ScrUse))
    (s : WinSt) : Option WinSt :=
  match winNew out s with
  | .ok t s1 =>
    (termUses t ops s1).bind fun s2 =>
      match scr with
      | none => termEnd t s2
      | some (cfg, uses) => screenLife u t cfg uses s2
  | .err _ s1 => some s1
  | .stop _ => none

/-- The calls without which a screen cannot be left, or opened entirely. -/
def Needed (inH old h : Nat) : ConCall → Prop
  | .getMode g | .setMode g _ => g = h ∨ g = inH
  | .setCtrlHandler _ => True
  | .setActive g => g = old
  | .close g => g = h
  | _ => False

end Mortal.Spec
