import Verif.Model.Input
import Verif.Spec.SequenceMap

/-! # What terminal input means -/

namespace Mortal.Spec

/-- A table made through the `SequenceMap` API whose contents are the mathematical map `K`.
In the crate the keys are strings (`SmallString`), hence UTF-8. -/
structure Table (m : SequenceMap SeqData) (K : PMap SeqData) : Prop where
  built : ∃ (i : MapInit SeqData) (ops : List (MapOp SeqData)) (m₀ : SequenceMap SeqData)
    (os : List (MapOut SeqData)), i.run = some m₀ ∧ codeRun m₀ ops = some (m, os) ∧
    K = (specRun i.spec ops).1
  utf8 : ∀ k v, K k = some v → ∃ s, k = encode s

/-- `k` is a known, non-empty sequence the input begins with. -/
def Begins (K : PMap SeqData) (buf k : Bytes) : Prop := K k ≠ none ∧ k ≠ [] ∧ k <+: buf

/-- `k` is the longest of them. -/
def Longest (K : PMap SeqData) (buf k : Bytes) : Prop :=
  Begins K buf k ∧ ∀ k', Begins K buf k' → k'.length ≤ k.length

/-- Decimal notation. -/
def decimal (n : Nat) : Bytes :=
  if n < 10 then [UInt8.ofNat (48 + n)] else decimal (n / 10) ++ [UInt8.ofNat (48 + n % 10)]

/-- A string of decimal digits (possibly empty, leading zeros allowed). -/
def Digits (ds : Bytes) : Prop := ∀ d ∈ ds, 48 ≤ d.toNat ∧ d.toNat ≤ 57

/-- The number such a string denotes. -/
def numeral (ds : Bytes) : Nat := ds.foldl (fun a d => 10 * a + (d.toNat - 48)) 0

/-- The part of an SGR mouse report after the introducer (xterm control sequences, mode 1006):
`code ; column ; line` and `M` for press, `m` for release; 1-based position. -/
def sgrBody (code column line : Nat) (press : Bool) : Bytes :=
  decimal code ++ [59] ++ decimal column ++ [59] ++ decimal line ++ [if press then 77 else 109]

/-- A whole SGR report. -/
def sgrReport (code column line : Nat) (press : Bool) : Bytes :=
  [0x1b, 0x5b, 0x3c] ++ sgrBody code column line press

/-- The modifiers of a button code (xterm: 4 = Shift, 8 = Meta, 16 = Control). -/
def sgrMods (code : Nat) : ModifierState :=
  { shift := code / 4 % 2 == 1, alt := code / 8 % 2 == 1, ctrl := code / 16 % 2 == 1 }

/-- The button code without the modifiers. -/
def sgrBase (code : Nat) : Nat := code % 4 + 32 * (code / 32)

/-- The input a button code without modifiers stands for. -/
def sgrInput (base : Nat) (press : Bool) : MouseInput :=
  let ev := if press then MouseInput.buttonPressed else MouseInput.buttonReleased
  if base = 0 then ev .left
  else if base = 1 then ev .middle
  else if base = 2 then ev .right
  else if base = 3 then ev (.other 3)
  else if base = 64 then .wheelUp
  else if base = 65 then .wheelDown
  else .motion

/-- The event of a report. -/
def sgrEvent (code column line : Nat) (press : Bool) : MouseEvent :=
  { position := ⟨line - 1, column - 1⟩, input := sgrInput (sgrBase code) press,
    modifiers := sgrMods code }

/-- The bytes begin with a whole UTF-8 character `c`. -/
def StartsWith (b : Bytes) (c : Char) : Prop := String.utf8EncodeChar c <+: b

/-- The bytes are the beginning of a character whose remaining bytes have not arrived. -/
def Unfinished (b : Bytes) : Prop :=
  b ≠ [] ∧ ∃ c t, t ≠ [] ∧ String.utf8EncodeChar c = b ++ t

/-- The bytes neither begin with a character nor can they be completed to one. -/
def IllFormed (b : Bytes) : Prop :=
  b ≠ [] ∧ ∀ c t u, String.utf8EncodeChar c ++ u ≠ b ++ t

end Mortal.Spec

namespace Mortal.Spec

/-- A terminal that calls itself `xterm` or `xterm-…`. -/
def XtermName (name : Bytes) : Prop :=
  name = [120, 116, 101, 114, 109] ∨ ∃ t, name = [120, 116, 101, 114, 109, 45] ++ t

/-- The key each capability is about, as terminfo(5) has it: the arrow keys (`kcuu1`, `kcud1`, `kcub1`,
`kcuf1`), home and end, next page and previous page (`knp`, `kpp`), delete-character and
insert-character (`kdch1`, `kich1`), and the function keys. -/
def keyMeant : KeyCap → Key
  | .keyUp => .up
  | .keyDown => .down
  | .keyLeft => .left
  | .keyRight => .right
  | .keyHome => .home
  | .keyEnd => .end
  | .keyNPage => .pageDown
  | .keyPPage => .pageUp
  | .keyDc => .delete
  | .keyIc => .insert
  | .keyF n => .f n

/-- The capabilities a terminal is to understand, those that take precedence last: the keys to move with
and to edit, then F1 to F12. -/
def knownCaps : List KeyCap :=
  [.keyUp, .keyDown, .keyLeft, .keyRight, .keyHome, .keyEnd, .keyNPage, .keyPPage, .keyDc, .keyIc] ++
  (List.range 12).map fun n => .keyF (n + 1)

open Classical in
/-- The capabilities whose string in the terminfo entry is `b`, in the order of the list; only non-ASCII
strings are left out. -/
noncomputable def keysOf (info : KeyCap → Option Bytes) (l : List KeyCap) (b : Bytes) : List KeyCap :=
  l.filter fun k => info k = some b ∧ ∀ x ∈ b, x.toNat < 128

open Classical in
/-- The table a terminal should use: its terminfo key strings (of several keys with the same string
the last one counts), and the mouse introducer on an xterm. -/
noncomputable def tableSpec (info : KeyCap → Option Bytes) (name : Bytes) : PMap SeqData := fun b =>
  if XtermName name ∧ b = [0x1b, 0x5b, 0x3c] then some .xtermMouse
  else (keysOf info knownCaps b).getLast?.map fun k => .key (keyMeant k)

end Mortal.Spec
