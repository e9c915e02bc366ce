import Verif.Model.Utf8

/-!
# Decoding of terminal input (`src/unix/terminal.rs:1069-1362`)
-/

namespace Mortal

/-- `src/unix/terminal.rs:59-65` `SeqData`. -/
inductive SeqData
  | key (k : Key)
  | xtermMouse
deriving DecidableEq, Repr

/-- Largest `u32`. (For `src/unix/terminal.rs:1311-1345`.) -/
def u32Max : Nat := 2 ^ 32 - 1

/-- `src/unix/terminal.rs:1312-1330` `parse_integer`: the number, the byte that ended it and the
rest of the input; `none` on overflow or at the end of the input. -/
def parseInteger : Nat → Bytes → Option (Nat × UInt8 × Bytes)
  | _, [] => none
  | n, b :: bs =>
    if 48 ≤ b.toNat ∧ b.toNat ≤ 57 then
      if n * 10 ≤ u32Max then
        if n * 10 + (b.toNat - 48) ≤ u32Max then parseInteger (n * 10 + (b.toNat - 48)) bs
        else none
      else none
    else some (n, b, bs)

/-- `src/unix/terminal.rs:1332-1345` `mouse_button_event`. -/
def mouseButtonEvent (input : Nat) (pressed : Bool) : MouseInput :=
  let button := match input with
    | 0 => MouseButton.left
    | 1 => .middle
    | 2 => .right
    | n => .other n
  if pressed then .buttonPressed button else .buttonReleased button

/-- `src/unix/terminal.rs:1279-1300`: modifiers and input of a report. -/
def mouseInput (input : Nat) (pressed : Bool) : MouseInput × ModifierState :=
  let v := BitVec.ofNat 32 input
  let mods : ModifierState :=
    { shift := v &&& 0x04#32 != 0#32, alt := v &&& 0x08#32 != 0#32, ctrl := v &&& 0x10#32 != 0#32 }
  let v := (v &&& ~~~(0x04#32 ||| 0x08#32 ||| 0x10#32)).toNat
  let i :=
    if v ≤ 3 then mouseButtonEvent v pressed
    else if v = 64 then .wheelUp
    else if v = 65 then .wheelDown
    else .motion
  (i, mods)

/-- `src/unix/terminal.rs:1255-1310` `parse_mouse_data`: the event and the number of bytes used.
Outer `none`: panic (subtraction overflow with checks on). -/
def parseMouseData (buf : Bytes) : Panics (Option (MouseEvent × Nat)) :=
  match parseInteger 0 buf with
  | none => some none
  | some (input, e1, r1) =>
    if e1.toNat ≠ 59 then some none
    else
      match parseInteger 0 r1 with
      | none => some none
      | some (column, e2, r2) =>
        if e2.toNat ≠ 59 then some none
        else
          match parseInteger 0 r2 with
          | none => some none
          | some (line, e3, r3) =>
            if e3.toNat ≠ 77 ∧ e3.toNat ≠ 109 then some none
            else do
              let (i, mods) := mouseInput input (e3.toNat = 77)
              let l ← usub line 1
              let c ← usub column 1
              pure (some (⟨⟨l, c⟩, i, mods⟩, buf.length - r3.length))

/-- `src/unix/terminal.rs:1217-1230`: the loop over the prefixes. -/
def scanPrefixes (m : SequenceMap SeqData) :
    List (List Char) → Option (Bytes × SeqData) → Panics (Option (Bytes × SeqData))
  | [], last => some last
  | p :: ps, last =>
    match m.find (encode p) with
    | none => none
    | some .notFound => some last
    | some (.found v) => some (some (encode p, v))
    | some .incomplete => scanPrefixes m ps last
    | some (.undecided v) => scanPrefixes m ps (some (encode p, v))

/-- Result of `peek_event`: an error, nothing, or an event and its length.
(`src/unix/terminal.rs:1205-1252`.) -/
inductive Peek
  | err
  | none
  | event (ev : Event) (n : Nat)
deriving DecidableEq

/-- `src/unix/terminal.rs:1205-1253` `peek_event`. Outer `none`: panic. -/
def peekEvent (m : SequenceMap SeqData) (buf : Bytes) : Panics Peek :=
  match utf8Prefix buf with
  | none => some .err
  | some s =>
    match s with
    | [] => some .none
    | ch :: _ => do
      let pfxs ← prefixesP s
      let last ← scanPrefixes m pfxs none
      let first := Peek.event (.key (Key.ofChar ch)) (lenUtf8 ch)
      match last with
      | none => pure first
      | some (seq, .key k) => pure (.event (.key k) seq.length)
      | some (seq, .xtermMouse) =>
        match ← parseMouseData (buf.drop seq.length) with
        | some (ev, len) => pure (.event (.mouse ev) (seq.length + len))
        | none => pure first

/-- `src/unix/terminal.rs:587-602` `try_read` on the buffered bytes: the result and the bytes left.
`drain(..n)` beyond the end panics. -/
def tryRead (m : SequenceMap SeqData) (buf : Bytes) : Panics (Peek × Bytes) :=
  if buf = [] then some (.none, buf)
  else do
    match ← peekEvent m buf with
    | .event ev n => if n > buf.length then none else pure (.event ev n, buf.drop n)
    | .none => pure (.none, buf)
    | .err => pure (.err, buf)

/-- The capabilities of a terminfo entry that `sequences` asks for (`src/unix/terminal.rs:1088-1109`), by
the names of the `terminfo` crate; `keyF n` is `KeyFn`. -/
inductive KeyCap
  | keyUp | keyDown | keyLeft | keyRight | keyHome | keyEnd | keyNPage | keyPPage | keyDc | keyIc
  | keyF (n : Nat)
deriving DecidableEq, Repr

/-- The `add!`s of `sequences` (`src/unix/terminal.rs:1088-1109`), in order. -/
def keyAdds : List (KeyCap × Key) :=
  [(.keyUp, .up), (.keyDown, .down), (.keyLeft, .left), (.keyRight, .right), (.keyHome, .home),
   (.keyEnd, .end), (.keyNPage, .pageDown), (.keyPPage, .pageUp), (.keyDc, .delete), (.keyIc, .insert),
   (.keyF 1, .f 1), (.keyF 2, .f 2), (.keyF 3, .f 3), (.keyF 4, .f 4), (.keyF 5, .f 5), (.keyF 6, .f 6),
   (.keyF 7, .f 7), (.keyF 8, .f 8), (.keyF 9, .f 9), (.keyF 10, .f 10), (.keyF 11, .f 11), (.keyF 12, .f 12)]

/-- `src/unix/terminal.rs:52` `XTERM_MOUSE_INTRO`. -/
def XTERM_MOUSE_INTRO : Bytes := [0x1b, 0x5b, 0x3c]

/-- `src/unix/terminal.rs:1069-1072` `is_xterm`. -/
def isXterm (name : Bytes) : Bool :=
  name == [120, 116, 101, 114, 109] || startsWith name [120, 116, 101, 114, 109, 45]

/-- One `add!` of `sequences` (`src/unix/terminal.rs:1077-1085`, with `ascii_str`, 1389-1397):
strings that are not ASCII are left out. -/
def addSeq (info : KeyCap → Option Bytes) (m : SequenceMap SeqData) (a : KeyCap × Key) :
    Panics (SequenceMap SeqData) :=
  match info a.1 with
  | none => some m
  | some s => if s.all (fun b => decide (b.toNat < 128)) then (m.insert s (.key a.2)).map (·.1)
              else some m

/-- `src/unix/terminal.rs:1074-1115` `sequences`. -/
def sequences (info : KeyCap → Option Bytes) (name : Bytes) : Panics (SequenceMap SeqData) := do
  let m ← keyAdds.foldlM (addSeq info) SequenceMap.new
  if isXterm name then (m.insert XTERM_MOUSE_INTRO .xtermMouse).map (·.1) else pure m

end Mortal
