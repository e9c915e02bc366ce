import Verif.Model.Util

/-! # What the helpers of `util.rs` should do, in plain terms -/

namespace Mortal.Spec

/-- The letter whose control code is `n` (1 ↦ 'a', …, 26 ↦ 'z'), and the five punctuation codes
and `@` used for the others, lower case. -/
def ctrlLetter (n : Nat) : Char :=
  ("@abcdefghijklmnopqrstuvwxyz[\\]^_".toList)[n]?.getD '@'

/-- The documented meaning of `Key::from(char)` (`src/terminal.rs:239-301`): escape, delete, CR/LF
and tab have their own keys, other characters below U+0020 are Ctrl with the lower-case letter, all
others are plain characters. -/
inductive KeyOf : Char → Key → Prop
  | esc : KeyOf (Char.ofNat 0x1b) .escape
  | del : KeyOf (Char.ofNat 0x7f) .backspace
  | cr : KeyOf (Char.ofNat 13) .enter
  | lf : KeyOf (Char.ofNat 10) .enter
  | tab : KeyOf (Char.ofNat 9) .tab
  | ctrl (c : Char) (h : c.toNat < 32) (h1 : c.toNat ∉ [9, 10, 13, 0x1b]) :
      KeyOf c (.ctrl (ctrlLetter c.toNat))
  | char (c : Char) (h : 32 ≤ c.toNat) (h1 : c.toNat ≠ 0x7f) : KeyOf c (.char c)

/-- `p` is a non-empty prefix of `s`. -/
def NonemptyPrefix (p s : List Char) : Prop := p ≠ [] ∧ ∃ t, p ++ t = s

end Mortal.Spec
