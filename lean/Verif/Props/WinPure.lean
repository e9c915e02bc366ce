import Verif.Lemmas.WinPure
import Verif.Props.Util

/-! # C43, C44, C45, C49: the attribute word, mouse and key records and the cursor on Windows -/

namespace Mortal
open Spec

/-! ## C43 -/

/-- **C43.** The word set by `update_attrs` looks as wanted, for every default word, colours and
style. -/
theorem C43_word (default : BitVec 16) (fg bg : Option Color) (style : Style) :
    lookOf (attrWord default fg bg style) = wantedLook default fg bg style :=
  look_attrWord default fg bg style

/-- The look determines the word, so there is only one word as wanted. -/
theorem C43_word_unique (w : BitVec 16) (default : BitVec 16) (fg bg : Option Color) (style : Style)
    (h : lookOf w = wantedLook default fg bg style) : w = attrWord default fg bg style :=
  look_inj _ _ (h.trans (C43_word default fg bg style).symm)

example : attrWord 0x0107#16 (some .red) none (.BOLD ||| .REVERSE) = 0x0148#16 := by decide

/-- **C43.** `swap_colors` exchanges the colours and touches nothing else. -/
theorem C43_swap (w : BitVec 16) :
    lookOf (swapColors w) = { lookOf w with fg := (lookOf w).bg, bg := (lookOf w).fg } :=
  look_swap w

/-- **C43.** Swapping twice is the identity. -/
theorem C43_swap_twice (w : BitVec 16) : swapColors (swapColors w) = w := by
  apply look_inj
  rw [look_swap, look_swap]

example : swapColors 0xFA9C#16 = 0xFAC9#16 ∧ swapColors 0xFAC9#16 = 0xFA9C#16 := by decide

/-- **C43.** With no attributes the word is the default one. -/
theorem C43_none (default : BitVec 16) : attrWord default none none 0 = default := by
  apply look_inj
  rw [C43_word]
  simp [wantedLook]

/-! ## C44 -/

/-- **C44.** Every mouse record is understood, without a panic: the wheel by its direction, motion
only if wanted or a button is held, and otherwise the lowest button that changes, pressed or released
as it really is. -/
theorem C44_record (r : WReader) (m : MouseRec) :
    ∃ i r', winMouseInput r m = some (i, r') ∧ Meaning r m i r' := mouse_meaning r m

example : winMouseInput ⟨false, 0⟩ ⟨⟨3, 4⟩, 8, 0, 0⟩ = some (some (.buttonPressed (.other 3)), ⟨false, 8⟩) ∧
    winMouseInput ⟨false, 4⟩ ⟨⟨3, 4⟩, 4, 0, 1⟩ = some (some .motion, ⟨false, 4⟩) ∧
    winMouseInput ⟨false, 0⟩ ⟨⟨3, 4⟩, 0, 0, 1⟩ = some (none, ⟨false, 0⟩) ∧
    winMouseInput ⟨false, 2⟩ ⟨⟨3, 4⟩, 0xFF880002, 0, 4⟩ = some (some .wheelDown, ⟨false, 2⟩) := by decide

/-- **C44.** The event built has the position and the modifiers of the record. -/
theorem C44_event (r : WReader) (m : MouseRec) (hx : 0 ≤ m.pos.x) (hx' : m.pos.x ≤ 32767)
    (hy : 0 ≤ m.pos.y) (hy' : m.pos.y ≤ 32767) :
    ∃ e r', winMouseEvent r (.mouse m) = some (e, r') ∧ Meaning r m (e.map (·.input)) r' ∧
      ∀ e', e = some e' → (e'.position.line : Int) = m.pos.y ∧ (e'.position.column : Int) = m.pos.x ∧
        e'.modifiers.alt = (m.keys.getLsbD 0 || m.keys.getLsbD 1) ∧
        e'.modifiers.ctrl = (m.keys.getLsbD 2 || m.keys.getLsbD 3) ∧
        e'.modifiers.shift = m.keys.getLsbD 4 := by
  obtain ⟨i, r', h1, h2⟩ := mouse_meaning r m
  refine ⟨_, r', by simp only [winMouseEvent, h1, Option.map_some]; rfl, ?_, ?_⟩
  · cases i <;> exact h2
  · intro e' he
    cases i with
    | none => simp at he
    | some i =>
      simp only [Option.map_some, Option.some.injEq] at he
      subst he
      refine ⟨?_, ?_, hasAlt_eq _, hasCtrl_eq _, hasShift_eq _⟩ <;>
        simp only [coordToCursor, shortToUsize] <;> omega

example : winMouseEvent ⟨false, 0⟩ (.mouse ⟨⟨3, 4⟩, 1, 0x19, 0⟩) =
    some (some ⟨⟨4, 3⟩, .buttonPressed .left, ⟨true, true, true⟩⟩, ⟨false, 1⟩) := by decide

/-- The claim that every change of buttons is reported: after any records, a program that follows the
events knows which buttons are held. -/
def ButtonsKnown (r : WReader) (ms : List MouseRec) : Prop :=
  ∀ held : MouseButton → Bool, (∀ b, held b = true ↔ buttonsIn r.prev b) →
    ∃ is r', readMice r ms = some (is, r') ∧
      ∀ b, heldAfter held is b = true ↔ buttonsIn (stateAfter r.prev ms) b

/-- **C44.** It holds for every history in which no record changes two buttons at once. *Missing:*
records that do (see `C44_two_at_once`), and horizontal wheels (see `C44_horizontal_wheel`). -/
theorem C44_history_partial (r : WReader) (ms : List MouseRec) (h : OneByOne r.prev ms) :
    ButtonsKnown r ms := by
  intro held hh
  obtain ⟨is, h1, h2⟩ := mice_held ms r held h hh
  exact ⟨is, _, h1, h2⟩

/-- Left down, right down too, a turn of the wheel, left up: the right button is still held. -/
example : readMice ⟨false, 0⟩ [⟨⟨0, 0⟩, 1, 0, 0⟩, ⟨⟨0, 0⟩, 3, 0, 0⟩, ⟨⟨0, 0⟩, 0x780003, 0, 4⟩,
    ⟨⟨0, 0⟩, 2, 0, 0⟩] = some ([.buttonPressed .left, .buttonPressed .right, .wheelUp,
      .buttonReleased .left], ⟨false, 2⟩) := by decide

/-- **C44, negative.** If one record changes two buttons, the higher one is never reported: pressing
left and right at once leaves the right button unknown. -/
theorem C44_two_at_once : ¬ ∀ r ms, ButtonsKnown r ms := by
  intro h
  obtain ⟨is, r', h1, h2⟩ := h ⟨false, 0⟩ [⟨⟨0, 0⟩, 3, 0, 0⟩] (fun _ => false) (by
    intro b
    constructor
    · intro hb; cases hb
    · rintro ⟨k, _, _, hk⟩
      simp at hk)
  have e : readMice ⟨false, 0⟩ [⟨⟨0, 0⟩, 3, 0, 0⟩] = some ([.buttonPressed .left], ⟨false, 3⟩) := by
    decide
  rw [e] at h1
  cases h1
  have := (h2 .right).2 ⟨1, by omega, rfl, by decide⟩
  exact absurd this (by decide)

/-- **C44, negative.** A turn of the horizontal wheel (`MOUSE_HWHEELED`, flag 8, direction in the high
word) is reported as a change of a button numbered 16 or more, although no button changed. -/
theorem C44_horizontal_wheel (r : WReader) (m : MouseRec) (hw : m.flags.getLsbD 2 = false)
    (low : ∀ i < 16, r.prev.getLsbD i = m.buttons.getLsbD i)
    (high : ∃ i, 16 ≤ i ∧ r.prev.getLsbD i ≠ m.buttons.getLsbD i) :
    ∃ k, 16 ≤ k ∧ winMouseInput r m = some (some (changeOf m.buttons k), ⟨r.track, m.buttons⟩) := by
  have hne : r.prev ≠ m.buttons := by
    obtain ⟨i, _, hi⟩ := high
    intro e; rw [e] at hi; exact hi rfl
  obtain ⟨k, hk, h⟩ := winMouseInput_changed r m hw hne
  refine ⟨k, ?_, h⟩
  rcases Nat.lt_or_ge k 16 with h1 | h1
  · exact absurd (low k h1) hk.2.1
  · exact h1

example : winMouseInput ⟨false, 0⟩ ⟨⟨0, 0⟩, 0x780000, 0, 8⟩ =
    some (some (.buttonPressed (.other 19)), ⟨false, 0x780000⟩) := by decide

/-! ## C45 -/

/-- **C45.** Conversions saturate and never wrap. -/
theorem C45_conversions (n : Nat) (h : n ≤ usizeMax) :
    toShort n = min (n : Int) 32767 ∧ toShortNeg n = max (-(n : Int)) (-32768) ∧
    (toDword n).toNat = min n 4294967295 := by
  unfold toShort toShortNeg toDword
  refine ⟨by split <;> omega, ?_, ?_⟩
  · unfold usizeMax at h
    dsimp only
    split <;> split <;> omega
  · split
    · rw [show (4294967295#32).toNat = 4294967295 from rfl]; omega
    · rw [BitVec.toNat_ofNat]; omega

example : toShort 40000 = 32767 ∧ toShortNeg 40000 = -32768 ∧ toShortNeg 9223372036854775808 = -32768 ∧
    toShortNeg 7 = -7 := by decide

/-- **C45.** A position within reach of `SHORT` survives the conversion to a coordinate and back. -/
theorem C45_round_trip (c : Cursor) (h1 : c.line ≤ 32767) (h2 : c.column ≤ 32767) :
    coordToCursor (cursorToCoord c) = c := by
  rcases c with ⟨l, k⟩
  simp only at h1 h2
  simp only [coordToCursor, cursorToCoord, toShort, shortToUsize, Cursor.mk.injEq]
  constructor <;> split <;> omega

example : cursorToCoord ⟨24, 79⟩ = ⟨79, 24⟩ ∧ coordToCursor ⟨79, 24⟩ = ⟨24, 79⟩ := by decide

/-- **C45.** `move_right` and `move_down` by any distance end where they should, at most at the last
column or line. -/
theorem C45_move_forward (size cursor : Coord) (hs : GoodBuffer size) (hc : InBuffer size cursor)
    (n : Nat) :
    moveRelDest size cursor ⟨toShort n, 0⟩ = some ⟨clamp 0 (size.x - 1) (cursor.x + n), cursor.y⟩ ∧
    moveRelDest size cursor ⟨0, toShort n⟩ = some ⟨cursor.x, clamp 0 (size.y - 1) (cursor.y + n)⟩ := by
  obtain ⟨s1, s2, s3, s4⟩ := hs
  obtain ⟨c1, c2, c3, c4⟩ := hc
  have h1 : short (size.x - 1) = some (size.x - 1) := by
    rw [short, if_pos]; unfold IsShort; omega
  have h2 : short (size.y - 1) = some (size.y - 1) := by
    rw [short, if_pos]; unfold IsShort; omega
  simp only [moveRelDest, h1, h2, Option.bind_eq_bind, Option.bind_some, Option.pure_def,
    Option.some.injEq, Coord.mk.injEq, clamp, toShort, shortSatAdd]
  constructor <;> constructor <;> (repeat' split) <;> omega

example : moveRelDest ⟨80, 25⟩ ⟨10, 5⟩ ⟨toShort 1000000, 0⟩ = some ⟨79, 5⟩ := by decide

/-- **C45.** `move_left` and `move_up` end where they should if the distance does not pass the edge.
*Missing:* greater distances, for which the claim is false (`C45_move_backward_outside`). -/
theorem C45_move_backward_partial (size cursor : Coord) (hs : GoodBuffer size)
    (hc : InBuffer size cursor) (n : Nat) :
    (n ≤ cursor.x → moveRelDest size cursor ⟨toShortNeg n, 0⟩ =
      some ⟨clamp 0 (size.x - 1) (cursor.x - n), cursor.y⟩) ∧
    (n ≤ cursor.y → moveRelDest size cursor ⟨0, toShortNeg n⟩ =
      some ⟨cursor.x, clamp 0 (size.y - 1) (cursor.y - n)⟩) := by
  obtain ⟨s1, s2, s3, s4⟩ := hs
  obtain ⟨c1, c2, c3, c4⟩ := hc
  have h1 : short (size.x - 1) = some (size.x - 1) := by
    rw [short, if_pos]; unfold IsShort; omega
  have h2 : short (size.y - 1) = some (size.y - 1) := by
    rw [short, if_pos]; unfold IsShort; omega
  simp only [moveRelDest, h1, h2, Option.bind_eq_bind, Option.bind_some, Option.pure_def,
    Option.some.injEq, Coord.mk.injEq, clamp, toShortNeg, shortSatAdd]
  constructor <;> intro hn <;> constructor <;> (repeat' split) <;> omega

example : moveRelDest ⟨80, 25⟩ ⟨10, 5⟩ ⟨toShortNeg 4, 0⟩ = some ⟨6, 5⟩ := by decide

/-- **C45, negative.** A greater distance always gives a position outside the buffer, which the
console refuses: `move_left` and `move_up` fail instead of stopping at the edge. -/
theorem C45_move_backward_outside (size cursor : Coord) (hs : GoodBuffer size)
    (hc : InBuffer size cursor) (n : Nat) :
    (cursor.x < n → ∃ d, moveRelDest size cursor ⟨toShortNeg n, 0⟩ = some d ∧ d.x < 0) ∧
    (cursor.y < n → ∃ d, moveRelDest size cursor ⟨0, toShortNeg n⟩ = some d ∧ d.y < 0) := by
  obtain ⟨s1, s2, s3, s4⟩ := hs
  obtain ⟨c1, c2, c3, c4⟩ := hc
  have h1 : short (size.x - 1) = some (size.x - 1) := by
    rw [short, if_pos]; unfold IsShort; omega
  have h2 : short (size.y - 1) = some (size.y - 1) := by
    rw [short, if_pos]; unfold IsShort; omega
  constructor <;> intro hn <;>
    refine ⟨_, by simp only [moveRelDest, h1, h2, Option.bind_eq_bind, Option.bind_some,
      Option.pure_def]; rfl, ?_⟩ <;>
    simp only [toShortNeg, shortSatAdd] <;> (repeat' split) <;> omega

example : moveRelDest ⟨80, 25⟩ ⟨10, 5⟩ ⟨toShortNeg 11, 0⟩ = some ⟨-1, 5⟩ := by decide

theorem shortToDword_toNat {n : Int} (h0 : 0 ≤ n) (h1 : n ≤ 32767) : ((shortToDword n).toNat : Int) = n := by
  rw [shortToDword, BitVec.toNat_ofInt]
  omega

/-- **C45.** `clear_to_line_end` does not panic and clears exactly the rest of the line. -/
theorem C45_line_end (size start : Coord) (hs : GoodBuffer size) (hc : InBuffer size start) :
    ∃ n, lineEndCount size start = some n ∧ ∀ line column, InBuffer size ⟨column, line⟩ →
      (Filled size start n.toNat line column ↔ line = start.y ∧ start.x ≤ column) := by
  obtain ⟨s1, s2, s3, s4⟩ := hs
  obtain ⟨c1, c2, c3, c4⟩ := hc
  have h : short (size.x - start.x) = some (size.x - start.x) := by
    rw [short, if_pos]; unfold IsShort; omega
  refine ⟨_, by
    simp only [lineEndCount, h, Option.bind_eq_bind, Option.bind_some, Option.pure_def]; rfl, ?_⟩
  intro line column hb
  unfold Filled
  rw [shortToDword_toNat (by omega) (by omega)]
  obtain ⟨b1, b2, b3, b4⟩ := id hb
  simp only at b1 b2 b3 b4
  constructor
  · rintro ⟨_, h1, h2⟩
    have hl : line = start.y := by
      rcases Int.lt_trichotomy line start.y with h3 | h3 | h3
      · exfalso
        have : (line + 1) * size.x ≤ start.y * size.x := Int.mul_le_mul_of_nonneg_right h3 (by omega)
        rw [Int.add_mul] at this
        omega
      · exact h3
      · exfalso
        have : (start.y + 1) * size.x ≤ line * size.x := Int.mul_le_mul_of_nonneg_right h3 (by omega)
        rw [Int.add_mul] at this
        omega
    subst hl
    omega
  · rintro ⟨rfl, h2⟩
    refine ⟨hb, ?_, ?_⟩ <;> omega

example : lineEndCount ⟨80, 25⟩ ⟨10, 5⟩ = some 70 := by decide

/-- **C45.** `clear_to_screen_end` does not panic and clears exactly the rest of the line and the lines
below. -/
theorem C45_screen_end (size start : Coord) (hs : GoodBuffer size) (hc : InBuffer size start) :
    ∃ n, screenEndCount size start = some n ∧ ∀ line column, InBuffer size ⟨column, line⟩ →
      (Filled size start n.toNat line column ↔
        start.y < line ∨ (line = start.y ∧ start.x ≤ column)) := by
  obtain ⟨s1, s2, s3, s4⟩ := hs
  obtain ⟨c1, c2, c3, c4⟩ := hc
  have h1 : short (size.y - start.y) = some (size.y - start.y) := by
    rw [short, if_pos]; unfold IsShort; omega
  have h2 : short (size.x - start.x) = some (size.x - start.x) := by
    rw [short, if_pos]; unfold IsShort; omega
  have e1 := shortToDword_toNat (n := size.y - start.y) (by omega) (by omega)
  have e2 := shortToDword_toNat (n := size.x) (by omega) (by omega)
  have e3 := shortToDword_toNat (n := size.x - start.x) (by omega) (by omega)
  generalize ea : (shortToDword (size.y - start.y)).toNat = a at e1
  generalize eb : (shortToDword size.x).toNat = b at e2
  generalize ec : (shortToDword (size.x - start.x)).toNat = c at e3
  have hab : a * b ≤ 32767 * 32767 := Nat.mul_le_mul (by omega) (by omega)
  have d1 : dword (a * b) = some (BitVec.ofNat 32 (a * b)) := by rw [dword, if_pos (by omega)]
  have d2 : (BitVec.ofNat 32 (a * b)).toNat = a * b := by rw [BitVec.toNat_ofNat]; omega
  have d3 : dword (a * b + c) = some (BitVec.ofNat 32 (a * b + c)) := by rw [dword, if_pos (by omega)]
  refine ⟨BitVec.ofNat 32 (a * b + c), by
    simp only [screenEndCount, h1, h2, ea, eb, ec, Option.bind_eq_bind, Option.bind_some, d1, d2, d3],
    ?_⟩
  intro line column hb
  unfold Filled
  have d4 : (BitVec.ofNat 32 (a * b + c)).toNat = a * b + c := by rw [BitVec.toNat_ofNat]; omega
  rw [d4]
  have d5 : (((a * b + c : Nat)) : Int) = (size.y - start.y) * size.x + (size.x - start.x) := by
    rw [Int.natCast_add, Int.natCast_mul, e1, e2, e3]
  rw [d5, Int.sub_mul]
  obtain ⟨b1, b2, b3, b4⟩ := id hb
  simp only at b1 b2 b3 b4
  have htop : (line + 1) * size.x ≤ size.y * size.x := Int.mul_le_mul_of_nonneg_right b4 (by omega)
  rw [Int.add_mul] at htop
  constructor
  · rintro ⟨_, h3, _⟩
    rcases Int.lt_trichotomy line start.y with h4 | h4 | h4
    · exfalso
      have : (line + 1) * size.x ≤ start.y * size.x := Int.mul_le_mul_of_nonneg_right h4 (by omega)
      rw [Int.add_mul] at this
      omega
    · subst h4; exact .inr ⟨rfl, by omega⟩
    · exact .inl h4
  · intro h3
    refine ⟨hb, ?_, by omega⟩
    rcases h3 with h3 | ⟨rfl, h3⟩
    · have : (start.y + 1) * size.x ≤ line * size.x := Int.mul_le_mul_of_nonneg_right h3 (by omega)
      rw [Int.add_mul] at this
      omega
    · omega

example : screenEndCount ⟨80, 25⟩ ⟨10, 5⟩ = some 1670 := by decide

/-- **C45.** A position with a negative coordinate, which no console reports, is outside of every screen
for the program; it is not mistaken for another position. -/
theorem C45_negative (p : Coord) (z : Size) (hz : z.lines ≤ 2 ^ 63 ∧ z.columns ≤ 2 ^ 63)
    (hx : IsShort p.x) (hy : IsShort p.y) (h : p.x < 0 ∨ p.y < 0) :
    z.lines ≤ (coordToCursor p).line ∨ z.columns ≤ (coordToCursor p).column := by
  unfold IsShort at hx hy
  unfold coordToCursor shortToUsize
  dsimp only
  rcases h with h | h <;> omega

/-- **C45.** If the console were to say that the cursor is right of the buffer, `clear_to_line_end` would
clear not nothing, but everything from there on. -/
theorem C45_line_end_outside (size start : Coord) (hs : GoodBuffer size) (h1 : size.x < start.x)
    (h2 : start.x ≤ 32767) (h3 : 0 ≤ start.y) :
    ∃ n, lineEndCount size start = some n ∧ ∀ line column, InBuffer size ⟨column, line⟩ →
      (Filled size start n.toNat line column ↔ start.y * size.x + start.x ≤ line * size.x + column) := by
  obtain ⟨s1, s2, s3, s4⟩ := hs
  have h : short (size.x - start.x) = some (size.x - start.x) := by
    rw [short, if_pos]; unfold IsShort; omega
  refine ⟨_, by
    simp only [lineEndCount, h, Option.bind_eq_bind, Option.bind_some, Option.pure_def]; rfl, ?_⟩
  intro line column hb
  unfold Filled
  have e : ((shortToDword (size.x - start.x)).toNat : Int) = 4294967296 + (size.x - start.x) := by
    rw [shortToDword, BitVec.toNat_ofInt]
    omega
  rw [e]
  obtain ⟨b1, b2, b3, b4⟩ := id hb
  simp only at b1 b2 b3 b4
  constructor
  · rintro ⟨_, h4, -⟩
    exact h4
  · intro h4
    refine ⟨hb, h4, ?_⟩
    have : line * size.x ≤ 32767 * 32767 := Int.mul_le_mul (by omega) (by omega) (by omega) (by omega)
    have : 0 ≤ start.y * size.x := Int.mul_nonneg h3 (by omega)
    omega

/-- **C45.** Below the buffer `clear_to_screen_end` would panic (with overflow checks), unless the buffer has
one column. -/
theorem C45_screen_end_outside (size start : Coord) (hs : GoodBuffer size) (h1 : size.y < start.y)
    (h2 : start.y ≤ 32767) (h3 : 2 ≤ size.x) : screenEndCount size start = none := by
  obtain ⟨s1, s2, s3, s4⟩ := hs
  have h : short (size.y - start.y) = some (size.y - start.y) := by
    rw [short, if_pos]; unfold IsShort; omega
  have e : ((shortToDword (size.y - start.y)).toNat : Int) = 4294967296 + (size.y - start.y) := by
    rw [shortToDword, BitVec.toNat_ofInt]
    omega
  have e2 := shortToDword_toNat (n := size.x) (by omega) (by omega)
  unfold screenEndCount
  rw [h]
  simp only [Option.bind_eq_bind, Option.bind_some]
  cases short (size.x - start.x) with
  | none => rfl
  | some c =>
    simp only [Option.bind_some]
    generalize (shortToDword (size.y - start.y)).toNat = a at e
    generalize (shortToDword size.x).toNat = b at e2
    have : 4294934529 * 2 ≤ a * b := Nat.mul_le_mul (by omega) (by omega)
    rw [dword, if_neg (by omega)]
    rfl

example : lineEndCount ⟨80, 25⟩ ⟨81, 5⟩ = some 4294967295 ∧ screenEndCount ⟨80, 25⟩ ⟨0, 26⟩ = none ∧
    (coordToCursor ⟨-1, 0⟩).column = 18446744073709551615 := by decide

/-! ## C49 -/

/-- **C49.** A key with a name is reported by it when it goes down, whatever else is held. -/
theorem C49_named (k : KeyRec) (key : Key) (h : (k.vk.toNat, key) ∈ namedKeys) (hd : k.down = true) :
    keyPressEvent (.key k) = some key := by
  simp only [keyPressEvent, hd, (vkKey_iff _ _).2 h]
  simp

example : ((0x79 : Nat), Key.f 10) ∈ namedKeys ∧
    keyPressEvent (.key ⟨true, 0x79, 0, 0x0A⟩) = some (.f 10) := by decide

/-- **C49.** Nothing is reported when a key goes up, nor for records that are not about keys. -/
theorem C49_up (r : InRec) (h : ∀ k, r = .key k → k.down = false) : keyPressEvent r = none := by
  cases r with
  | key k => simp [keyPressEvent, h k rfl]
  | mouse m => rfl
  | size s => rfl
  | other => rfl

example : keyPressEvent (.key ⟨false, 0x79, 0, 0⟩) = none := by decide

/-- **C49.** A character of the basic plane typed on any other key, with neither Alt nor Ctrl, is
reported once, as `Key::from` of it. -/
theorem C49_char (vk : BitVec 16) (keys : BitVec 32) (c : Char)
    (hv : ∀ key, (vk.toNat, key) ∉ namedKeys) (hp : NoMods keys) (hc : c.toNat < 0x10000)
    (h0 : c.toNat ≠ 0) :
    ∃ key, (typed vk keys [c]).filterMap keyPressEvent = [key] ∧ KeyOf c key := by
  refine ⟨Key.ofChar c, ?_, C07_key_of_char c⟩
  have hu := C49_up (.key ⟨false, vk, BitVec.ofNat 16 c.toNat, keys⟩) (fun k e => by cases e; rfl)
  simp only [typed, encodeUtf16, if_pos hc, strokes, List.flatMap_cons, List.flatMap_nil,
    List.append_nil, List.filterMap_cons, keyPress_bmp hv hp hc h0, hu, List.filterMap_nil]

theorem plain_shift : NoMods 0x10#32 := by
  intro i hi
  have : i = 0 ∨ i = 1 ∨ i = 2 ∨ i = 3 := by omega
  rcases this with rfl | rfl | rfl | rfl <;> decide

example : (∀ key, ((0x41#16).toNat, key) ∉ namedKeys) ∧
    (typed 0x41 0x10 ['A']).filterMap keyPressEvent = [.char 'A'] :=
  ⟨fun _ h => by
    have := (vkKey_iff _ _).2 h
    exact absurd this (by simp [vkKey]), by decide⟩

/-- The claim that typing a printable text reports it character by character. -/
def TypesAs (vk : BitVec 16) (keys : BitVec 32) (s : List Char) : Prop :=
  (typed vk keys s).filterMap keyPressEvent = s.map .char

/-- **C49.** It holds for every text of printable characters of the basic plane, typed without Alt.
*Missing:* the other planes (`C49_supplementary_lost`) and AltGr (`C49_altgr_lost`). -/
theorem C49_text_partial (vk : BitVec 16) (keys : BitVec 32) (s : List Char)
    (hv : ∀ key, (vk.toNat, key) ∉ namedKeys) (hp : NoMods keys)
    (hs : ∀ c ∈ s, 32 ≤ c.toNat ∧ c.toNat ≠ 127 ∧ c.toNat < 0x10000) : TypesAs vk keys s := by
  unfold TypesAs
  induction s with
  | nil => rfl
  | cons c s ih =>
    obtain ⟨h1, h2, h3⟩ := hs c (List.mem_cons_self ..)
    have e : typed vk keys (c :: s) = typed vk keys [c] ++ typed vk keys s := by
      simp [typed]
    obtain ⟨key, h4, h5⟩ := C49_char vk keys c hv hp h3 (by omega)
    rw [e, List.filterMap_append, h4, ih fun d hd => hs d (List.mem_cons_of_mem _ hd)]
    have : key = .char c := by
      cases h5 with
      | esc => exact absurd h1 (by decide)
      | del => exact absurd rfl h2
      | cr => exact absurd h1 (by decide)
      | lf => exact absurd h1 (by decide)
      | tab => exact absurd h1 (by decide)
      | ctrl _ h => omega
      | char => rfl
    rw [this]
    rfl

example : (typed 0xE7 0 ['ä', 'b', '語']).filterMap keyPressEvent = [.char 'ä', .char 'b', .char '語'] := by
  decide

/-- **C49, negative.** A character outside the basic plane comes as two records, and nothing is
reported for either: it is lost. -/
theorem C49_supplementary_lost (vk : BitVec 16) (keys : BitVec 32)
    (hv : ∀ key, (vk.toNat, key) ∉ namedKeys) (c : Char) (hc : 0x10000 ≤ c.toNat) :
    (typed vk keys [c]).filterMap keyPressEvent = [] := by
  have hmax : c.toNat < 0x110000 := by
    rcases c.valid with h | ⟨_, h⟩
    · exact Nat.lt_trans h (by decide)
    · exact h
  have b1 : (BitVec.ofNat 16 (0xD800 + (c.toNat - 0x10000) / 0x400)).toNat =
      0xD800 + (c.toNat - 0x10000) / 0x400 := by rw [BitVec.toNat_ofNat]; omega
  have b2 : (BitVec.ofNat 16 (0xDC00 + (c.toNat - 0x10000) % 0x400)).toNat =
      0xDC00 + (c.toNat - 0x10000) % 0x400 := by rw [BitVec.toNat_ofNat]; omega
  have k1 := fun d => keyPress_surrogate (keys := keys) hv
    (u := BitVec.ofNat 16 (0xD800 + (c.toNat - 0x10000) / 0x400)) (by omega) (by omega) d
  have k2 := fun d => keyPress_surrogate (keys := keys) hv
    (u := BitVec.ofNat 16 (0xDC00 + (c.toNat - 0x10000) % 0x400)) (by omega) (by omega) d
  have hn : ¬ c.toNat < 0x10000 := by omega
  simp only [typed, encodeUtf16, if_neg hn, strokes, List.flatMap_cons, List.flatMap_nil,
    List.append_nil, List.cons_append, List.nil_append, List.filterMap_cons, k1, k2,
    List.filterMap_nil]

/-- So the claim is false in general. -/
theorem C49_text_refuted : ¬ ∀ vk keys s, (∀ key, (vk.toNat, key) ∉ namedKeys) → NoMods keys →
    (∀ c ∈ s, 32 ≤ c.toNat ∧ c.toNat ≠ 127) → TypesAs vk keys s := by
  intro h
  have := h 0xE7 0 ['😀'] (fun key hk => by
    have := (vkKey_iff _ _).2 hk
    exact absurd this (by simp [vkKey])) (fun i _ => by simp) (by decide)
  exact absurd this (by unfold TypesAs; decide)

/-- **C49, negative.** A character that needs AltGr (which the console shows as right Alt and left
Ctrl, 0x9), such as `@` on many keyboards, is not reported. -/
theorem C49_altgr_lost (k : KeyRec) (hv : ∀ key, (k.vk.toNat, key) ∉ namedKeys)
    (ha : k.keys.getLsbD 0 = true ∨ k.keys.getLsbD 1 = true) : keyPressEvent (.key k) = none := by
  have h1 : vkKey k.vk.toNat = none := by
    cases h : vkKey k.vk.toNat
    · rfl
    · exact absurd ((vkKey_iff _ _).1 h) (hv _)
  have h2 : hasAlt k.keys = true := by
    rw [hasAlt_eq]; rcases ha with h | h <;> simp [h]
  simp only [keyPressEvent, h1, h2]
  simp

example : keyPressEvent (.key ⟨true, 0x51, 0x40, 0x9⟩) = none ∧
    keyPressEvent (.key ⟨true, 0x51, 0x40, 0⟩) = some (.char '@') := by decide

theorem unctrlLower_ctrl (c : Char) (h : c.toNat < 32) : unctrlLower c = ctrlLetter c.toNat := by
  obtain ⟨n, hn⟩ : ∃ n, c.toNat = n := ⟨_, rfl⟩
  have hc := char_eq_ofNat c n hn
  rw [hn] at h ⊢
  subst hc
  clear hn
  interval_cases n <;> decide

theorem keyPress_ctrl {vk : BitVec 16} {keys : BitVec 32} (hv : ∀ k, (vk.toNat, k) ∉ namedKeys)
    (ha : keys.getLsbD 0 = false ∧ keys.getLsbD 1 = false)
    (hk : keys.getLsbD 2 = true ∨ keys.getLsbD 3 = true) {c : Char} (hc : c.toNat < 0x10000)
    (h0 : c.toNat ≠ 0) :
    keyPressEvent (.key ⟨true, vk, BitVec.ofNat 16 c.toNat, keys⟩) = some (.ctrl (unctrlLower c)) := by
  have h1 : vkKey vk.toNat = none := by
    cases h : vkKey vk.toNat
    · rfl
    · exact absurd ((vkKey_iff _ _).1 h) (hv _)
  have h2 : hasAlt keys = false := by rw [hasAlt_eq, ha.1, ha.2]; rfl
  have h3 : hasCtrl keys = true := by rw [hasCtrl_eq]; rcases hk with h | h <;> simp [h]
  have h4 : (BitVec.ofNat 16 c.toNat).toNat = c.toNat := by
    rw [BitVec.toNat_ofNat]; omega
  have h5 : BitVec.ofNat 16 c.toNat ≠ 0 := by
    intro h
    have := congrArg BitVec.toNat h
    rw [h4] at this
    exact h0 this
  simp only [keyPressEvent, h1, h2, h3, h4, charFromU32_char]
  rw [if_pos h5]
  simp

/-- Every key typed with Ctrl and without Alt is reported once, as Ctrl with the letter if the
record holds the letter's control code, and as Ctrl with the character itself otherwise. -/
def CtrlTypes (vk : BitVec 16) (keys : BitVec 32) (c : Char) : Prop :=
  (typed vk keys [c]).filterMap keyPressEvent =
    [.ctrl (if c.toNat < 32 then ctrlLetter c.toNat else c)]

/-- **C49.** With Ctrl (either of them) and without Alt, a control code typed on any other key is
reported once, as Ctrl with the letter; carriage return and tab too, as long as the key is not the
named one. *Missing:* records with a character that is no control code, see
`C49_ctrl_refuted`. -/
theorem C49_ctrl_partial (vk : BitVec 16) (keys : BitVec 32) (c : Char)
    (hv : ∀ key, (vk.toNat, key) ∉ namedKeys)
    (ha : keys.getLsbD 0 = false ∧ keys.getLsbD 1 = false)
    (hk : keys.getLsbD 2 = true ∨ keys.getLsbD 3 = true) (hc : c.toNat < 32) (h0 : c.toNat ≠ 0) :
    CtrlTypes vk keys c := by
  have hu := C49_up (.key ⟨false, vk, BitVec.ofNat 16 c.toNat, keys⟩) (fun k e => by cases e; rfl)
  have hc' : c.toNat < 0x10000 := by omega
  simp only [CtrlTypes, typed, encodeUtf16, if_pos hc', strokes, List.flatMap_cons,
    List.flatMap_nil, List.append_nil, List.filterMap_cons, keyPress_ctrl hv ha hk hc' h0, hu,
    List.filterMap_nil, unctrlLower_ctrl c hc, if_pos hc]

/-- Ctrl-M on the key M is Ctrl-M, although the character is carriage return. -/
example : (∀ key, ((0x4D#16).toNat, key) ∉ namedKeys) ∧ (0x8#32).getLsbD 3 = true ∧
    (typed 0x4D 0x8 ['\r']).filterMap keyPressEvent = [.ctrl 'm'] :=
  ⟨fun _ h => by
    have := (vkKey_iff _ _).2 h
    exact absurd this (by simp [vkKey]), by decide, by decide⟩

/-- **C49, negative.** The claim is false of other characters: Ctrl with the digit 1 is reported as
Ctrl-Q, since bit 6 is set in whatever character comes. -/
theorem C49_ctrl_refuted : ¬ ∀ vk keys c, (∀ key, (vk.toNat, key) ∉ namedKeys) →
    (keys.getLsbD 0 = false ∧ keys.getLsbD 1 = false) →
    (keys.getLsbD 2 = true ∨ keys.getLsbD 3 = true) → c.toNat ≠ 0 → c.toNat < 0x10000 →
    CtrlTypes vk keys c := by
  intro h
  have := h 0x31 0x8 '1' (fun key hk => by
    have := (vkKey_iff _ _).2 hk
    exact absurd this (by simp [vkKey])) (by decide) (by decide) (by decide) (by decide)
  exact absurd this (by unfold CtrlTypes; decide)

/-- **C49, negative.** Distinct keys become one: Ctrl with any character whose number ends in the
same six bits, such as the digit 1 and the Cyrillic letter U+0431, is reported alike. -/
theorem C49_ctrl_conflated : ∃ c d : Char, c ≠ d ∧ c.toNat < 0x10000 ∧ d.toNat < 0x10000 ∧
    ∀ vk keys, (∀ key, (vk.toNat, key) ∉ namedKeys) →
      (keys.getLsbD 0 = false ∧ keys.getLsbD 1 = false) →
      (keys.getLsbD 2 = true ∨ keys.getLsbD 3 = true) →
      (typed vk keys [c]).filterMap keyPressEvent = [.ctrl 'q'] ∧
      (typed vk keys [d]).filterMap keyPressEvent = [.ctrl 'q'] := by
  refine ⟨'1', 'б', by decide, by decide, by decide, fun vk keys hv ha hk => ?_⟩
  have key : ∀ c : Char, c.toNat < 0x10000 → c.toNat ≠ 0 →
      (typed vk keys [c]).filterMap keyPressEvent = [.ctrl (unctrlLower c)] := by
    intro c hc h0
    have hu := C49_up (.key ⟨false, vk, BitVec.ofNat 16 c.toNat, keys⟩) (fun k e => by cases e; rfl)
    simp only [typed, encodeUtf16, if_pos hc, strokes, List.flatMap_cons,
      List.flatMap_nil, List.append_nil, List.filterMap_cons, keyPress_ctrl hv ha hk hc h0, hu,
      List.filterMap_nil]
  refine ⟨?_, ?_⟩
  · rw [key '1' (by decide) (by decide), show unctrlLower '1' = 'q' by decide]
  · rw [key 'б' (by decide) (by decide), show unctrlLower 'б' = 'q' by decide]

/-- **C49.** What `read_event` makes of each kind of record: key records give key events or none and
leave the buttons alone, size records give their own lines and columns, other records nothing; and
no kind of record gives the event of another. -/
theorem C49_record (r r' : WReader) (e : InRec) (ev : Event) (h : recordEvent r e = some (ev, r')) :
    match e with
    | .key _ => r' = r ∧ ((∃ k, keyPressEvent e = some k ∧ ev = .key k) ∨
        (keyPressEvent e = none ∧ ev = .noEvent))
    | .mouse m => (∃ me, ev = .mouse me) ∨ (ev = .noEvent ∧ r.track = false ∧ m.buttons = 0 ∧ r.prev = 0)
    | .size s => r' = r ∧ ∃ z : Size, ev = .resize z ∧
        (0 ≤ s.x → 0 ≤ s.y → IsShort s.x → IsShort s.y →
          (z.lines : Int) = s.y ∧ (z.columns : Int) = s.x)
    | .other => r' = r ∧ ev = .noEvent := by
  cases e with
  | key k =>
    dsimp only
    unfold recordEvent at h
    cases hk : keyPressEvent (.key k) with
    | some key => rw [hk] at h; cases h; exact ⟨rfl, .inl ⟨_, rfl, rfl⟩⟩
    | none => rw [hk] at h; cases h; exact ⟨rfl, .inr ⟨rfl, rfl⟩⟩
  | size s =>
    cases h
    refine ⟨rfl, _, rfl, ?_⟩
    intro hx hy hx' hy'
    unfold IsShort at hx' hy'
    simp only [shortToUsize]
    omega
  | other => cases h; exact ⟨rfl, rfl⟩
  | mouse m =>
    dsimp only
    simp only [recordEvent, keyPressEvent, winMouseEvent] at h
    cases hi : winMouseInput r m with
    | none => rw [hi] at h; cases h
    | some p =>
      obtain ⟨i, r1⟩ := p
      rw [hi] at h
      cases i with
      | some i => cases h; exact .inl ⟨_, rfl⟩
      | none =>
        cases h
        right
        unfold winMouseInput at hi
        split at hi
        · cases hi
        · dsimp only at hi
          split at hi
          · split at hi
            · next h1 h2 => exact ⟨rfl, h2.2, h2.1, h1.trans h2.1⟩
            · cases hi
          · next hne =>
            exfalso
            rcases buttonChanged_spec r.prev m.buttons 32 (by omega) (fun j hj => absurd hj (by omega))
              with ⟨h1, _⟩ | ⟨k, _, h2⟩
            · exact hne h1
            · rw [h2] at hi; cases hi

/-- A window made 30 lines high and 100 columns wide; releasing nothing with no tracking. -/
example : recordEvent ⟨false, 1⟩ (.size ⟨100, 30⟩) = some (.resize ⟨30, 100⟩, ⟨false, 1⟩) ∧
    recordEvent ⟨false, 0⟩ (.mouse ⟨⟨3, 4⟩, 0, 0, 0⟩) = some (.noEvent, ⟨false, 0⟩) ∧
    recordEvent ⟨true, 0⟩ (.mouse ⟨⟨3, 4⟩, 0, 0, 0⟩) =
      some (.mouse ⟨⟨4, 3⟩, .motion, ⟨false, false, false⟩⟩, ⟨true, 0⟩) := by decide

end Mortal
