import Verif.Spec.Pieces
import Verif.Spec.VtLive

/-!
# What an xterm sends when its user does something

The other direction of `Spec/Vt.lean`: bytes from the terminal to the program. What is sent depends on
the modes the program has set (`XTerm Control Sequences`: PC-style function keys, mouse tracking).
-/

namespace Mortal.Spec

/-- What is done with the mouse. Moving: with a button held down, or without. -/
inductive MouseAct
  | press (b : MouseButton)
  | release (b : MouseButton)
  | wheelUp
  | wheelDown
  | move (held : Option MouseButton)
deriving DecidableEq

/-- What the user does: a key, or something with the mouse at a cell (counted from 0), while modifier
keys are held down. -/
inductive UserAct
  | key (k : Key)
  | mouse (a : MouseAct) (at_ : Cursor) (mods : ModifierState)
deriving DecidableEq

/-- The final byte of the keys that mode 1 is about. -/
def cursorKeyByte : Key → Option UInt8
  | .up => some 0x41
  | .down => some 0x42
  | .right => some 0x43
  | .left => some 0x44
  | .home => some 0x48
  | .end => some 0x46
  | _ => none

/-- The number that F5 to F12 send. -/
def functionNumber (n : Nat) : Nat := if n = 5 then 15 else if n ≤ 10 then n + 11 else n + 12

/-- What a key sends; `app`: mode 1 (application cursor keys) is set. A letter with Ctrl sends its
position in the alphabet. -/
def xtermKeyBytes (app : Bool) (k : Key) : Bytes :=
  match cursorKeyByte k with
  | some b => [0x1b, if app then 0x4f else 0x5b, b]
  | none =>
    match k with
    | .escape => [0x1b]
    | .enter => [13]
    | .tab => [9]
    | .backspace => [127]
    | .insert => esc "2~"
    | .delete => esc "3~"
    | .pageUp => esc "5~"
    | .pageDown => esc "6~"
    | .f n => if n ≤ 4 then [0x1b, 0x4f, UInt8.ofNat (0x4f + n)]
        else 0x1b :: 0x5b :: decimal (functionNumber n) ++ asc "~"
    | .ctrl c => [UInt8.ofNat (c.toNat - 96)]
    | .char c => String.utf8EncodeChar c
    | _ => []

/-- The number of a button. -/
def buttonNumber : MouseButton → Nat
  | .left => 0
  | .middle => 1
  | .right => 2
  | .other n => n

/-- The number of what was done, without modifiers: moving adds 32; 3 stands for no button. -/
def MouseAct.number : MouseAct → Nat
  | .press b | .release b => buttonNumber b
  | .wheelUp => 64
  | .wheelDown => 65
  | .move (some b) => 32 + buttonNumber b
  | .move none => 35

/-- Shift adds 4, Alt 8, Ctrl 16. -/
def modsNumber (m : ModifierState) : Nat :=
  (if m.shift then 4 else 0) + (if m.alt then 8 else 0) + (if m.ctrl then 16 else 0)

/-- Modes 1002 and 1003 have the mouse reported, except that mode 1002 leaves out moving without a
button. -/
def Vt.reports (v : Vt) : MouseAct → Bool
  | .move none => v.mode 1003
  | _ => v.mode 1002 || v.mode 1003

/-- The bytes sent for what the user does. With mode 1006 the position is in decimal; without it, it is
one byte each (0 beyond what fits), and a release does not say of which button. -/
def Vt.sends (v : Vt) : UserAct → Bytes
  | .key k => xtermKeyBytes (v.mode 1) k
  | .mouse a p m =>
    if v.reports a then
      if v.mode 1006 then
        [0x1b, 0x5b, 0x3c] ++ decimal (a.number + modsNumber m) ++ [59] ++ decimal (p.column + 1) ++ [59] ++
          decimal (p.line + 1) ++ [match a with | .release _ => 109 | _ => 77]
      else
        let n := match a with | .release _ => 3 | _ => a.number
        let byte := fun k : Nat => if k ≤ 222 then UInt8.ofNat (33 + k) else 0
        [0x1b, 0x5b, 0x4d, UInt8.ofNat (32 + n + modsNumber m), byte p.column, byte p.line]
    else []

/-- All of it. -/
def Vt.sent (v : Vt) (acts : List UserAct) : Bytes := acts.flatMap v.sends

/-- The name. -/
def xtermName : Bytes := asc "xterm-256color"

/-- The strings of the keys in the entry `xterm-256color` of ncurses (F13 and more left out). -/
def xtermKeys : KeyCap → Option Bytes
  | .keyUp => some (0x1b :: asc "OA")
  | .keyDown => some (0x1b :: asc "OB")
  | .keyRight => some (0x1b :: asc "OC")
  | .keyLeft => some (0x1b :: asc "OD")
  | .keyHome => some (0x1b :: asc "OH")
  | .keyEnd => some (0x1b :: asc "OF")
  | .keyNPage => some (esc "6~")
  | .keyPPage => some (esc "5~")
  | .keyDc => some (esc "3~")
  | .keyIc => some (esc "2~")
  | .keyF 1 => some (0x1b :: asc "OP")
  | .keyF 2 => some (0x1b :: asc "OQ")
  | .keyF 3 => some (0x1b :: asc "OR")
  | .keyF 4 => some (0x1b :: asc "OS")
  | .keyF 5 => some (esc "15~")
  | .keyF 6 => some (esc "17~")
  | .keyF 7 => some (esc "18~")
  | .keyF 8 => some (esc "19~")
  | .keyF 9 => some (esc "20~")
  | .keyF 10 => some (esc "21~")
  | .keyF 11 => some (esc "23~")
  | .keyF 12 => some (esc "24~")
  | .keyF _ => none

/-- Keys of the keyboard: printable characters, letters with Ctrl, F1 to F12 and the named keys. Ctrl-I,
Ctrl-J and Ctrl-M are not among them: xterm sends for them what it sends for Tab and Enter. -/
def OnKeyboard : Key → Prop
  | .char c => ¬ Control c
  | .ctrl c => 'a' ≤ c ∧ c ≤ 'z' ∧ c ≠ 'i' ∧ c ≠ 'j' ∧ c ≠ 'm'
  | .f n => 1 ≤ n ∧ n ≤ 12
  | _ => True

/-- The button is one of three. -/
def ThreeButtons : MouseButton → Prop
  | .other _ => False
  | _ => True

/-- Something a user can do: windows have less than 2¹⁶ lines and columns. -/
def UserAct.Possible : UserAct → Prop
  | .key k => OnKeyboard k
  | .mouse a p _ => p.line < 2 ^ 16 ∧ p.column < 2 ^ 16 ∧
    match a with
    | .press b | .release b | .move (some b) => ThreeButtons b
    | _ => True

/-- What a program expects to be told. -/
def UserAct.event : UserAct → Event
  | .key k => .key k
  | .mouse a p m => .mouse
    { position := p
      input := match a with
        | .press b => .buttonPressed b
        | .release b => .buttonReleased b
        | .wheelUp => .wheelUp
        | .wheelDown => .wheelDown
        | .move _ => .motion
      modifiers := m }

/-- What a program has asked to be told: keys always; the mouse, if it has enabled the mouse; moving
without a button, if it always tracks motion. -/
def AskedFor (cfg : PrepareConfig) : UserAct → Bool
  | .key _ => true
  | .mouse (.move none) _ _ => cfg.enableMouse && cfg.alwaysTrackMotion
  | .mouse _ _ _ => cfg.enableMouse

/-- Escape is never followed directly by `[` or `O`: the three keys Escape, `O`, `A` send what Up
sends. -/
def EscapeApart (acts : List UserAct) : Prop :=
  ∀ l c r, acts = l ++ .key .escape :: .key (.char c) :: r → c ≠ '[' ∧ c ≠ 'O'

/-- Escape is never mistaken: what is sent from an Escape on begins neither with what another key
sends nor like a report of the mouse. -/
def EscapeClear (v : Vt) (acts : List UserAct) : Prop :=
  ∀ l r, acts = l ++ .key .escape :: r →
    ¬ [0x1b, 0x5b, 0x3c] <+: v.sent (.key .escape :: r) ∧
    ∀ k, OnKeyboard k → k ≠ .escape → ¬ v.sends (.key k) <+: v.sent (.key .escape :: r)

/-- What has not been read yet begins with what the xterm sent for something the user did, or inside a
character: no read has ended inside anything else. -/
def Unbroken (v : Vt) (acts : List UserAct) (unread : Bytes) : Prop :=
  ∃ l r, acts = l ++ r ∧ (unread = v.sent r ∨
    ∃ c t a b, r = .key (.char c) :: t ∧ String.utf8EncodeChar c = a ++ b ∧ unread = b ++ v.sent t)

/-- The results of the calls of a history. -/
def callResults : List LiveEv → List URet
  | [] => []
  | .call _ r _ :: es => r :: callResults es
  | .window _ :: es => callResults es

end Mortal.Spec
