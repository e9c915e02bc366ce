import Verif.Model.WinPure

/-!
# Specifications for the Windows console (pure part)
-/

namespace Mortal.Spec

/-- The colour components of a colour: red, green, blue. -/
def rgb : Color → Bool × Bool × Bool
  | .black => (false, false, false) | .blue => (false, false, true)
  | .cyan => (false, true, true) | .green => (false, true, false)
  | .magenta => (true, false, true) | .red => (true, false, false)
  | .white => (true, true, true) | .yellow => (true, true, false)

/-- What a console cell looks like: the foreground and background components, the intensity of the
foreground, and the bits that have nothing to do with this crate. -/
structure Look where
  fg : Bool × Bool × Bool
  bg : Bool × Bool × Bool
  bright : Bool
  rest : List Bool
deriving DecidableEq

/-- How the console reads an attribute word: bits 0 to 2 are blue, green and red of the foreground,
bit 3 its intensity, bits 4 to 6 blue, green and red of the background, and the others. -/
def lookOf (w : BitVec 16) : Look where
  fg := (w.getLsbD 2, w.getLsbD 1, w.getLsbD 0)
  bg := (w.getLsbD 6, w.getLsbD 5, w.getLsbD 4)
  bright := w.getLsbD 3
  rest := [w.getLsbD 7, w.getLsbD 8, w.getLsbD 9, w.getLsbD 10, w.getLsbD 11, w.getLsbD 12,
    w.getLsbD 13, w.getLsbD 14, w.getLsbD 15]

/-- The look wanted: the given colours, or the default ones; bright if bold or so by default; colours
exchanged if reversed; everything else by default. -/
def wantedLook (default : BitVec 16) (fg bg : Option Color) (style : Style) : Look :=
  let d := lookOf default
  let f := match fg with
    | some c => rgb c
    | none => d.fg
  let b := match bg with
    | some c => rgb c
    | none => d.bg
  let bold := style.getLsbD 0
  let reverse := style.getLsbD 2
  { fg := if reverse then b else f, bg := if reverse then f else b, bright := d.bright || bold,
    rest := d.rest }

/-- The button of bit `k` of the button state. -/
def buttonOf : Nat → MouseButton
  | 0 => .left | 1 => .right | 2 => .middle | k => .other k

/-- The lowest bit in which two states differ is `k`. -/
def LowestChange (prev now : BitVec 32) (k : Nat) : Prop :=
  k < 32 ∧ prev.getLsbD k ≠ now.getLsbD k ∧ ∀ j < k, prev.getLsbD j = now.getLsbD j

/-- What the console reports about a change of button `k`. -/
def changeOf (now : BitVec 32) (k : Nat) : MouseInput :=
  if now.getLsbD k then .buttonPressed (buttonOf k) else .buttonReleased (buttonOf k)

/-- A program's idea of the buttons, from the events it is given. -/
def heldAfter (held : MouseButton → Bool) : List MouseInput → MouseButton → Bool
  | [] => held
  | .buttonPressed b :: is => heldAfter (fun x => if x = b then true else held x) is
  | .buttonReleased b :: is => heldAfter (fun x => if x = b then false else held x) is
  | _ :: is => heldAfter held is

/-- The buttons of a state. -/
def buttonsIn (s : BitVec 32) (b : MouseButton) : Prop := ∃ k < 32, buttonOf k = b ∧ s.getLsbD k = true

/-- Reading a sequence of mouse records: the inputs reported and the reader at the end. -/
def readMice (r : WReader) : List MouseRec → Option (List MouseInput × WReader)
  | [] => some ([], r)
  | m :: ms =>
    match winMouseInput r m with
    | none => none
    | some (i, r') => (readMice r' ms).map fun (is, r'') => (i.toList ++ is, r'')

/-- At most one button changes in each record that is not about a wheel. -/
def OneByOne : BitVec 32 → List MouseRec → Prop
  | _, [] => True
  | prev, m :: ms =>
    if m.flags.getLsbD 2 then OneByOne prev ms
    else (∀ i j, prev.getLsbD i ≠ m.buttons.getLsbD i → prev.getLsbD j ≠ m.buttons.getLsbD j →
      i = j) ∧ OneByOne m.buttons ms

/-- The button state after some records. -/
def stateAfter (prev : BitVec 32) (ms : List MouseRec) : BitVec 32 :=
  ms.foldl (fun p m => if m.flags.getLsbD 2 then p else m.buttons) prev

/-- What a reader is to make of a mouse record. -/
inductive Meaning (r : WReader) (m : MouseRec) : Option MouseInput → WReader → Prop
  /-- A wheel record says the direction by the sign of the high word; the buttons are untouched. -/
  | wheel (up : Bool) (hw : m.flags.getLsbD 2 = true)
      (hu : up = true ↔ (m.buttons.getLsbD 31 = false ∧ ∃ i, 16 ≤ i ∧ m.buttons.getLsbD i = true)) :
      Meaning r m (some (if up then .wheelUp else .wheelDown)) r
  /-- No button changes and none is held, and motion is not wanted. -/
  | quiet (hw : m.flags.getLsbD 2 = false) (h0 : ∀ i, r.prev.getLsbD i = false)
      (h1 : ∀ i, m.buttons.getLsbD i = false) (ht : r.track = false) :
      Meaning r m none { r with prev := m.buttons }
  /-- No button changes; motion is wanted or a button is held. -/
  | motion (hw : m.flags.getLsbD 2 = false) (hs : r.prev = m.buttons)
      (ht : r.track = true ∨ ∃ i, m.buttons.getLsbD i = true) :
      Meaning r m (some .motion) { r with prev := m.buttons }
  /-- The lowest button that changes. -/
  | change (k : Nat) (hw : m.flags.getLsbD 2 = false) (hl : LowestChange r.prev m.buttons k) :
      Meaning r m (some (changeOf m.buttons k)) { r with prev := m.buttons }

/-! ## Keys -/

/-- The keys that are told by their virtual key code alone. -/
def namedKeys : List (Nat × Key) :=
  [(0x08, .backspace), (0x09, .tab), (0x0D, .enter), (0x1B, .escape), (0x21, .pageUp),
   (0x22, .pageDown), (0x23, .end), (0x24, .home), (0x25, .left), (0x26, .up), (0x27, .right),
   (0x28, .down), (0x2D, .insert), (0x2E, .delete)] ++
  (List.range 12).map fun i => (0x70 + i, .f (i + 1))

/-- Records that type a UTF-16 unit: the key goes down and up. -/
def strokes (vk : BitVec 16) (keys : BitVec 32) (u : BitVec 16) : List InRec :=
  [.key ⟨true, vk, u, keys⟩, .key ⟨false, vk, u, keys⟩]

/-- Records that type a text. -/
def typed (vk : BitVec 16) (keys : BitVec 32) (s : List Char) : List InRec :=
  s.flatMap fun c => (encodeUtf16 c).flatMap (strokes vk keys)

/-- Neither Alt nor Ctrl is held. -/
def NoMods (keys : BitVec 32) : Prop := ∀ i < 4, keys.getLsbD i = false

/-! ## Cursor -/

/-- A console screen buffer size: `SHORT`s, at least one cell. -/
def GoodBuffer (size : Coord) : Prop := 1 ≤ size.x ∧ size.x ≤ 32767 ∧ 1 ≤ size.y ∧ size.y ≤ 32767

/-- A position inside a buffer. -/
def InBuffer (size p : Coord) : Prop := 0 ≤ p.x ∧ p.x < size.x ∧ 0 ≤ p.y ∧ p.y < size.y

/-- `n` brought between `lo` and `hi`. -/
def clamp (lo hi n : Int) : Int := max lo (min hi n)

/-- The cells (line, column) that filling `n` cells from `start` on touches: the cells are counted
line by line, up to the end of the buffer. -/
def Filled (size start : Coord) (n : Nat) (line column : Int) : Prop :=
  InBuffer size ⟨column, line⟩ ∧
    start.y * size.x + start.x ≤ line * size.x + column ∧
    line * size.x + column < start.y * size.x + start.x + n

end Mortal.Spec
