import Verif.Spec.BufferOps
import Verif.Props.BufferGrid
import Verif.Props.BufferWide

/-! # C55: drawing calls change what they name, and longer calls are made of shorter ones -/

namespace Mortal
open Spec

/-- **C55.** A call that writes no text changes the picture exactly as it should, everything it does
not name stays as it is; it panics only if the result has no place in a `usize`. -/
theorem C55_exact (env : UEnv) (b : Buf) (h : GridOk b) (op : BufOp) (ht : NoText op) :
    (op.run env b).map picOf = (picOf b).after op := by
  cases op with
  | nextLine c =>
    have hm : usizeMax = 2 ^ 64 - 1 := rfl
    simp only [BufOp.run, Buf.nextLine, uadd, Pic.after, picOf]
    by_cases hl : b.cursor.line + 1 < 2 ^ 64
    · rw [if_pos (by omega)]; exact (if_pos hl).symm
    · rw [if_neg (by omega)]; exact (if_neg hl).symm
  | clearScreen =>
    simp only [BufOp.run, Option.map_some, Pic.after, picOf, Buf.clearScreen, cellAt]
    congr 2
    funext c
    split
    · rename_i hc
      have hl : numOf b.size c < b.buffer.length := by rw [h.len]; exact numOf_lt hc
      rw [List.getElem?_map]
      rw [List.getElem?_eq_getElem (by exact hl)]
      exact (if_pos hc).symm
    · rename_i hc
      exact (if_neg hc).symm
  | resize s =>
    obtain ⟨b', e, h1, h2, h3, h4, -⟩ := C17_resize b h s ht
    simp only [Prod.mk.injEq] at h3
    simp only [BufOp.run, e, Option.map_some, Pic.after, picOf, h1, h2, h3]
    congr 2
    funext c
    split
    · rename_i hc
      rw [h4 c hc]
      split <;> rfl
    · rfl
  | writeChar _ => exact ht.elim
  | writeStr _ => exact ht.elim
  | writeAt _ _ => exact ht.elim
  | writeStyled _ _ _ _ => exact ht.elim
  | writeStyledAt _ _ _ _ _ => exact ht.elim
  | _ => rfl

/-- **C55.** Such a call leaves alone the record of what the terminal shows, except for a resize, after
which no cell counts as shown. -/
theorem C55_shown (env : UEnv) (b b' : Buf) (h : GridOk b) (op : BufOp) (ht : NoText op)
    (e : op.run env b = some b') :
    ((∀ s, op ≠ .resize s) → b'.back = b.back) ∧
    ∀ s, op = .resize s → ∀ c, InBounds c s → b'.back[numOf s c]? ≠ b'.buffer[numOf s c]? := by
  constructor
  · intro hr
    cases op with
    | nextLine c =>
      simp only [BufOp.run, Buf.nextLine, uadd] at e
      split at e
      · cases e; rfl
      · cases e
    | resize s => exact absurd rfl (hr s)
    | writeChar _ => exact ht.elim
    | writeStr _ => exact ht.elim
    | writeAt _ _ => exact ht.elim
    | writeStyled _ _ _ _ => exact ht.elim
    | writeStyledAt _ _ _ _ _ => exact ht.elim
    | _ => cases e; rfl
  · rintro s rfl
    obtain ⟨b2, e2, -, -, -, -, h5⟩ := C17_resize b h s ht
    have e : b.resize s = some b' := e
    rw [e2] at e
    cases e
    exact h5

/-- **C55.** Writing at a position inside the screen is moving the cursor there and writing; outside it
is nothing. The same with attributes. -/
theorem C55_at (env : UEnv) (b : Buf) (pos : Cursor) (text : List Char) (fg bg : Option Color)
    (st : Style) :
    (InBounds pos b.size →
      runOps env [.writeAt pos text] b = runOps env [.setCursor pos, .writeStr text] b ∧
      runOps env [.writeStyledAt pos fg bg st text] b =
        runOps env [.setCursor pos, .writeStyled fg bg st text] b) ∧
    (¬ InBounds pos b.size →
      runOps env [.writeAt pos text] b = some b ∧
      runOps env [.writeStyledAt pos fg bg st text] b = some b) := by
  constructor
  · intro hp
    simp only [runOps, BufOp.run, Buf.writeAt, Buf.writeStyledAt, tryCursorAt_ok.mpr hp]
    exact ⟨rfl, rfl⟩
  · intro hp
    obtain ⟨h1, h2⟩ := C12_write_at_outside env b pos hp text fg bg st
    simp only [runOps, BufOp.run, h1, h2]
    exact ⟨rfl, rfl⟩

/-- **C55.** A text in two parts: unless the first part hits the end of the screen, it is the two parts
one after the other; otherwise the second part does not matter. One character is a text too. -/
theorem C55_append (env : UEnv) (b : Buf) (s t : List Char) (ch : Char) :
    (∀ b1, b.writeStr env s = some (b1, .ok) → b.writeStr env (s ++ t) = b1.writeStr env t) ∧
    (∀ b1, b.writeStr env s = some (b1, .oob) → b.writeStr env (s ++ t) = some (b1, .oob)) ∧
    b.writeStr env [ch] = b.writeChar env ch ∧ b.writeStr env [] = some (b, .ok) := by
  refine ⟨?_, ?_, ?_, rfl⟩
  · induction s generalizing b with
    | nil => intro b1 e; cases e; rfl
    | cons c s ih =>
      intro b1 e
      rw [List.cons_append, Buf.writeStr]
      rw [Buf.writeStr] at e
      cases h1 : b.writeChar env c with
      | none => rw [h1] at e; cases e
      | some x =>
        obtain ⟨b2, r⟩ := x
        rw [h1] at e
        cases r with
        | ok => exact ih b2 b1 e
        | oob => cases e
  · induction s generalizing b with
    | nil => intro b1 e; cases e
    | cons c s ih =>
      intro b1 e
      rw [List.cons_append, Buf.writeStr]
      rw [Buf.writeStr] at e
      cases h1 : b.writeChar env c with
      | none => rw [h1] at e; cases e
      | some x =>
        obtain ⟨b2, r⟩ := x
        rw [h1] at e
        cases r with
        | ok => exact ih b2 b1 e
        | oob => cases e; rfl
  · rw [Buf.writeStr]
    cases h1 : b.writeChar env ch with
    | none => rfl
    | some x =>
      obtain ⟨b2, r⟩ := x
      cases r <;> rfl

/-- **C55.** A styled write that does not hit the end of the screen is setting the attributes, writing
the text and clearing the attributes. -/
theorem C55_styled (env : UEnv) (b b1 : Buf) (fg bg : Option Color) (st : Style) (text : List Char)
    (h : ({ b with fg := fg, bg := bg, style := st } : Buf).writeStr env text = some (b1, .ok)) :
    runOps env [.writeStyled fg bg st text] b =
      runOps env [.setTheme ⟨fg, bg, st⟩, .writeStr text, .clearAttributes] b := by
  have h' : ((b.setTheme ⟨fg, bg, st⟩).writeStr env text) = some (b1, .ok) := h
  have h1 : runOps env [.writeStyled fg bg st text] b = some b1.clearAttributes := by
    simp only [runOps, BufOp.run, Buf.writeStyled, h]; rfl
  have h2 : runOps env [.setTheme ⟨fg, bg, st⟩, .writeStr text, .clearAttributes] b =
      ((b.setTheme ⟨fg, bg, st⟩).writeStr env text).map fun r => r.1.clearAttributes := by
    simp only [runOps, BufOp.run]
    cases h3 : (b.setTheme ⟨fg, bg, st⟩).writeStr env text with
    | none => simp only [Option.bind_some, h3]; rfl
    | some x => simp only [Option.bind_some, h3]; rfl
  rw [h1, h2, h']; rfl

/-- **C11** for styled writes: single-width text written at a position in bounds that fits on the
screen carries the given attributes; none are in force afterwards. -/
theorem C11_styled_text (env : UEnv) (b : Buf) (h : GridOk b) (pos : Cursor)
    (hp : InBounds pos b.size) (text : List Char) (ht : ∀ ch ∈ text, Plain env ch)
    (hfit : numOf b.size pos + text.length ≤ b.size.lines * b.size.columns)
    (fg bg : Option Color) (st : Style) :
    ∃ b', b.writeStyledAt env pos fg bg st text = some (b', .ok) ∧ b'.size = b.size ∧
      b'.back = b.back ∧ (b'.fg, b'.bg, b'.style) = (none, none, 0#8) ∧
      b'.cursor = posOf b.size (numOf b.size pos + text.length) ∧
      ∀ c, InBounds c b.size → cellAt b' c =
        plainResult env { b with fg := fg, bg := bg, style := st } (numOf b.size pos) text c := by
  obtain ⟨b', e, f, c, g⟩ := C11_plain_text env { b with fg := fg, bg := bg, style := st }
    ⟨h.size, h.len, h.backLen, h.text⟩ pos hp text ht hfit
  refine ⟨b'.clearAttributes, ?_, f.1, f.2.1, rfl, c, g⟩
  unfold Buf.writeAt at e
  rw [show ({ b with fg := fg, bg := bg, style := st } : Buf).tryCursorAt pos = .ok from
    tryCursorAt_ok.mpr hp] at e
  dsimp only at e
  unfold Buf.writeStyledAt Buf.writeStyled
  rw [tryCursorAt_ok.mpr hp]
  dsimp only
  rw [e]
  rfl

/-- Non-trivial cases of the hypotheses. -/
example : GridOk (Buf.new ⟨2, 3⟩) ∧ NoText (.resize ⟨1, 4⟩) ∧ NoText (.nextLine 2) ∧
    InBounds ⟨1, 2⟩ (Buf.new ⟨2, 3⟩).size ∧ ¬ InBounds ⟨2, 0⟩ (Buf.new ⟨2, 3⟩).size ∧
    (∃ b1, (Buf.new ⟨2, 3⟩).writeStr demoEnv ['a', '世', '\n'] = some (b1, .ok)) ∧
    (∃ b1, (Buf.new ⟨1, 3⟩).writeStr demoEnv ['a', '世', 'b'] = some (b1, .oob)) :=
  ⟨⟨by decide, by decide, by decide, by decide⟩, by unfold NoText; decide, trivial, by decide, by decide,
    ⟨(((Buf.new ⟨2, 3⟩).writeStr demoEnv ['a', '世', '\n']).map (·.1)).getD (Buf.new ⟨1, 1⟩),
      by decide +kernel⟩,
    ⟨(((Buf.new ⟨1, 3⟩).writeStr demoEnv ['a', '世', 'b']).map (·.1)).getD (Buf.new ⟨1, 1⟩),
      by decide +kernel⟩⟩

end Mortal
