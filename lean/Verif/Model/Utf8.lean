import Verif.Model.SequenceMap
import Verif.Model.Util

/-!
# UTF-8 as `core::str::from_utf8` sees it, and `utf8_prefix`

`from_utf8` belongs to the Rust standard library; modelled here after its documentation (and Table
3-7 of the Unicode standard). It is used in `src/unix/terminal.rs:1347-1362`.
-/

namespace Mortal

/-- Outcome of decoding one character at the start of a byte string: the character and its length;
`incomplete` if the input ends inside a character (`Utf8Error::error_len() == None`), `invalid`
otherwise. (For `src/unix/terminal.rs:1347-1362`.) -/
inductive Dec
  | char (c : Char) (n : Nat)
  | incomplete
  | invalid
deriving DecidableEq

/-- A continuation byte. (For `src/unix/terminal.rs:1347-1362`.) -/
def isCont (b : UInt8) : Bool := decide (0x80 ≤ b.toNat) && decide (b.toNat ≤ 0xBF)

/-- Allowed second bytes after a three-byte lead `a`. (For `src/unix/terminal.rs:1347-1362`.) -/
def second3 (a b : Nat) : Bool :=
  if a = 0xE0 then decide (0xA0 ≤ b) && decide (b ≤ 0xBF)
  else if a = 0xED then decide (0x80 ≤ b) && decide (b ≤ 0x9F)
  else decide (0x80 ≤ b) && decide (b ≤ 0xBF)

/-- Allowed second bytes after a four-byte lead `a`. (For `src/unix/terminal.rs:1347-1362`.) -/
def second4 (a b : Nat) : Bool :=
  if a = 0xF0 then decide (0x90 ≤ b) && decide (b ≤ 0xBF)
  else if a = 0xF4 then decide (0x80 ≤ b) && decide (b ≤ 0x8F)
  else decide (0x80 ≤ b) && decide (b ≤ 0xBF)

/-- One step of `from_utf8` (standard library). (For `src/unix/terminal.rs:1347-1362`.) -/
def decodeOne : Bytes → Dec
  | [] => .incomplete
  | b0 :: rest =>
    let a := b0.toNat
    if a < 0x80 then .char (Char.ofNat a) 1
    else if a < 0xC2 then .invalid
    else if a < 0xE0 then
      match rest with
      | [] => .incomplete
      | b1 :: _ =>
        if isCont b1 then .char (Char.ofNat ((a - 0xC0) * 64 + (b1.toNat - 0x80))) 2 else .invalid
    else if a < 0xF0 then
      match rest with
      | [] => .incomplete
      | b1 :: rest =>
        if second3 a b1.toNat then
          match rest with
          | [] => .incomplete
          | b2 :: _ =>
            if isCont b2 then
              .char (Char.ofNat
                ((a - 0xE0) * 4096 + (b1.toNat - 0x80) * 64 + (b2.toNat - 0x80))) 3
            else .invalid
        else .invalid
    else if a < 0xF5 then
      match rest with
      | [] => .incomplete
      | b1 :: rest =>
        if second4 a b1.toNat then
          match rest with
          | [] => .incomplete
          | b2 :: rest =>
            if isCont b2 then
              match rest with
              | [] => .incomplete
              | b3 :: _ =>
                if isCont b3 then
                  .char (Char.ofNat ((a - 0xF0) * 262144 + (b1.toNat - 0x80) * 4096 +
                    (b2.toNat - 0x80) * 64 + (b3.toNat - 0x80))) 4
                else .invalid
            else .invalid
        else .invalid
    else .invalid

/-- How the scan of `from_utf8` ends. (For `src/unix/terminal.rs:1347-1362`.) -/
inductive DecEnd
  | done | incomplete | invalid
deriving DecidableEq

/-- The scan of `from_utf8`: the characters of the longest valid prefix, and what follows it. The
first argument bounds the number of characters (the number of bytes suffices).
(For `src/unix/terminal.rs:1347-1362`.) -/
def decodeAll : Nat → Bytes → List Char × DecEnd
  | 0, _ => ([], .done)
  | _ + 1, [] => ([], .done)
  | fuel + 1, b :: bs =>
    match decodeOne (b :: bs) with
    | .char c n =>
      let r := decodeAll fuel ((b :: bs).drop n)
      (c :: r.1, r.2)
    | .incomplete => ([], .incomplete)
    | .invalid => ([], .invalid)

/-- `src/unix/terminal.rs:1347-1362` `utf8_prefix`: the text, or an error (`none`). -/
def utf8Prefix (buf : Bytes) : Option (List Char) :=
  match decodeAll buf.length buf with
  | (s, .done) => some s
  | (s, e) =>
    if s ≠ [] then some s
    else if e = .invalid then none
    else some []

/-- `str::as_bytes` of a text given by its characters: the encoder of Lean's core library.
(For `src/unix/terminal.rs:985-991`.) -/
def encode (s : List Char) : Bytes := s.flatMap String.utf8EncodeChar

end Mortal
