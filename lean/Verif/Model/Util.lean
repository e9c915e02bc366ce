import Verif.Model.Types

/-! # `src/util.rs` and `Key::from(char)` -/

namespace Mortal

/-- `ch as u8` (Rust truncating cast of a `char`). (For `src/util.rs:37`, 62.) -/
def Char.asU8 (ch : Char) : BitVec 8 := BitVec.ofNat 8 ch.toNat

/-- `b as char` for a `u8`. (For `src/util.rs:37`, 62, 131.) -/
def u8AsChar (b : BitVec 8) : Char := Char.ofNat b.toNat

/-- `src/util.rs:23` `CTRL_MASK`. -/
def CTRL_MASK : BitVec 8 := 0x1f#8
/-- `src/util.rs:24` `UNCTRL_BIT`. -/
def UNCTRL_BIT : BitVec 8 := 0x40#8

/-- `src/util.rs:36-38` `ctrl`. -/
def ctrl (ch : Char) : Char := u8AsChar (Char.asU8 ch &&& CTRL_MASK)

/-- `src/util.rs:44-47` `is_ctrl` (on `u32`). -/
def isCtrl (ch : Char) : Bool := (ch.toNat &&& CTRL_MASK.toNat) == ch.toNat

/-- `src/util.rs:61-63` `unctrl_upper`. -/
def unctrlUpper (ch : Char) : Char := u8AsChar (Char.asU8 ch ||| UNCTRL_BIT)

/-- Rust `char::to_ascii_lowercase`. (For `src/util.rs:79`.) -/
def toAsciiLowercase (ch : Char) : Char :=
  if 65 ≤ ch.toNat ∧ ch.toNat ≤ 90 then Char.ofNat (ch.toNat + 32) else ch

/-- `src/util.rs:78-80` `unctrl_lower`. -/
def unctrlLower (ch : Char) : Char := toAsciiLowercase (unctrlUpper ch)

/-- `src/terminal.rs:288-301` `impl From<char> for Key`. -/
def Key.ofChar (ch : Char) : Key :=
  if ch = '\x1b' then .escape
  else if ch = '\x7f' then .backspace
  else if ch = '\r' ∨ ch = '\n' then .enter
  else if ch = '\t' then .tab
  else if isCtrl ch then .ctrl (unctrlLower ch)
  else .char ch

/-- Rust `char::len_utf8`. (For `src/util.rs:120`.) -/
def lenUtf8 (ch : Char) : Nat :=
  if ch.toNat < 0x80 then 1 else if ch.toNat < 0x800 then 2
  else if ch.toNat < 0x10000 then 3 else 4

/-- Rust `str::len` of a string given by its characters. (For `src/util.rs:109-122`.) -/
def strLen (s : List Char) : Nat := (s.map lenUtf8).sum

/-- Rust `str::char_indices`: characters with their byte offsets, from offset `off`. (For `src/util.rs:112`.) -/
def charIndices : Nat → List Char → List (Nat × Char)
  | _, [] => []
  | off, c :: cs => (off, c) :: charIndices (off + lenUtf8 c) cs

/-- Rust slice `&s[..n]` of a string given by its characters: `none` (panic) if `n` is not a
character boundary or is past the end. (For `src/util.rs:120`.) -/
def strTake : Nat → List Char → Panics (List Char)
  | 0, _ => some []
  | _ + 1, [] => none
  | n + 1, c :: cs =>
    if lenUtf8 c ≤ n + 1 then (strTake (n + 1 - lenUtf8 c) cs).map (c :: ·) else none
termination_by _ s => s.length

/-- `src/util.rs:109-122` `prefixes` / `Prefixes::next`, all items collected: item `i` is
`&s[..idx + ch.len_utf8()]` for the `i`-th `(idx, ch)` of `char_indices`. -/
def prefixesP (s : List Char) : Panics (List (List Char)) :=
  (charIndices 0 s).mapM fun (idx, ch) => strTake (idx + lenUtf8 ch) s

end Mortal
