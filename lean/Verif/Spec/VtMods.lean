import Verif.Spec.VtInput

/-!
# Keys with modifiers at an xterm

What an xterm sends when Shift, Alt or Ctrl is held down with a key that is not a character (`XTerm
Control Sequences`: PC-style function keys, the table of modifiers), for Shift-Tab, and for a character
with Alt if Alt sends Escape.
-/

namespace Mortal.Spec

/-- What the user does; `held`: a key with modifiers. -/
inductive KeyAct
  | act (a : UserAct)
  | held (k : Key) (m : ModifierState)
deriving DecidableEq

/-- The number that stands for the modifiers: 1, and Shift adds 1, Alt 2, Ctrl 4. -/
def heldNumber (m : ModifierState) : Nat :=
  1 + (if m.shift then 1 else 0) + (if m.alt then 2 else 0) + (if m.ctrl then 4 else 0)

/-- The characters of a number. -/
def digits (n : Nat) : List Char := (decimal n).map fun b => Char.ofNat b.toNat

/-- What is sent after an Escape. -/
def heldText (k : Key) (m : ModifierState) : List Char :=
  let one := fun c : Char => ['[', '1', ';'] ++ digits (heldNumber m) ++ [c]
  let tilde := fun n : Nat => ['['] ++ digits n ++ [';'] ++ digits (heldNumber m) ++ ['~']
  match k with
  | .up => one 'A'
  | .down => one 'B'
  | .right => one 'C'
  | .left => one 'D'
  | .home => one 'H'
  | .end => one 'F'
  | .insert => tilde 2
  | .delete => tilde 3
  | .pageUp => tilde 5
  | .pageDown => tilde 6
  | .f n => if n ≤ 4 then one (Char.ofNat (0x4f + n)) else tilde (functionNumber n)
  | .tab => ['[', 'Z']
  | .char c => [c]
  | _ => []

/-- The bytes sent. -/
def Vt.sendsHeld (v : Vt) : KeyAct → Bytes
  | .act a => v.sends a
  | .held k m => 0x1b :: encode (heldText k m)

/-- A key that can be pressed with these modifiers: any of them with keys that are not characters,
Shift with Tab, Alt with a character. (Alt with `[` or `O` sends how the keys begin, as Escape followed by
one of them.) -/
def KeyAct.Possible : KeyAct → Prop
  | .act a => a.Possible
  | .held k m =>
    match k with
    | .up | .down | .left | .right | .home | .end | .insert | .delete | .pageUp | .pageDown =>
      m ≠ {}
    | .f n => 1 ≤ n ∧ n ≤ 12 ∧ m ≠ {}
    | .tab => m = { shift := true }
    | .char c => m = { alt := true } ∧ ¬ Control c ∧ c ≠ '[' ∧ c ≠ 'O'
    | _ => False

/-- What the program is told: of a key with modifiers, Escape and then every character for itself. -/
def KeyAct.told : KeyAct → List Event
  | .act a => [a.event]
  | .held k m => .key .escape :: (heldText k m).map fun c => .key (.char c)

/-- What the program has asked to be told. -/
def AskedK (cfg : PrepareConfig) : KeyAct → Bool
  | .act a => AskedFor cfg a
  | .held _ _ => true

/-- What would send the same. -/
def KeyAct.typed : KeyAct → List UserAct
  | .act a => [a]
  | .held k m => .key .escape :: (heldText k m).map fun c => .key (.char c)

/-- Escape, pressed alone, is not followed directly by `[` or `O`. -/
def EscapeApartK (acts : List KeyAct) : Prop :=
  ∀ l c r, acts = l ++ .act (.key .escape) :: .act (.key (.char c)) :: r → c ≠ '[' ∧ c ≠ 'O'

end Mortal.Spec
