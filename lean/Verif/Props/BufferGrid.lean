import Verif.Lemmas.BufferText

/-! # C10–C13: the grid, plain text, out-of-bounds writes, control characters -/

namespace Mortal
open Spec

/-- C10: any history of drawing calls and resizes on a screen of valid size runs without a panic
and leaves a grid of exactly `lines * columns` non-empty cells, provided no character is wider than
the screen and no line number reaches the `usize` limit. Partial: without these two provisos the
claim is false, see the two theorems below. -/
theorem C10_draw_total_partial (env : UEnv) (henv : SpaceOk env) (s0 : Size) (hs0 : GoodSize s0)
    (ops : List BufOp)
    (hres : ∀ s, .resize s ∈ ops → GoodSize s)
    (hw : ∀ op ∈ ops, ∀ ch ∈ opText op, env.w ch ≤ s0.columns ∧
      ∀ s, .resize s ∈ ops → env.w ch ≤ s.columns)
    (L : Nat) (hL1 : s0.lines ≤ L) (hL2 : ∀ op ∈ ops, opLine op ≤ L)
    (hmax : L + (ops.map opNewlines).sum ≤ usizeMax) :
    ∃ b, runOps env ops (Buf.new s0) = some b ∧ GridOk b := by
  exact runOps_total henv ops (new_inv hs0) hres hw L (by simp [Buf.new, Cursor.default])
    hL1 hL2 hmax

/-- C10 is false on a one-column screen: a two-column character written on the last but one line
indexes past the grid. -/
theorem C10_wide_on_one_column_panics :
    SpaceOk demoEnv ∧ GoodSize ⟨2, 1⟩ ∧
      runOps demoEnv [.writeChar '世'] (Buf.new ⟨2, 1⟩) = none :=
  ⟨⟨by decide, by decide⟩, by decide, by decide⟩

/-- C10 is false at the end of the `usize` range: a newline there overflows the line number. -/
theorem C10_newline_at_limit_panics (env : UEnv) (s : Size) (c : Nat) :
    runOps env [.setCursor ⟨usizeMax, c⟩, .writeChar '\n'] (Buf.new s) = none := by
  simp [runOps, BufOp.run, Buf.writeChar, Buf.writeCharNT, Buf.setCursor, uadd]

/-- A non-trivial history meeting the hypotheses of `C10_draw_total_partial`. -/
example : ∃ ops : List BufOp, ops.length = 6 ∧
    (∀ s, .resize s ∈ ops → GoodSize s) ∧
    (∀ op ∈ ops, ∀ ch ∈ opText op, demoEnv.w ch ≤ 5 ∧
      ∀ s, .resize s ∈ ops → demoEnv.w ch ≤ s.columns) ∧
    (∀ op ∈ ops, opLine op ≤ 9) ∧ 9 + (ops.map opNewlines).sum ≤ usizeMax := by
  refine ⟨[.setFg (some .red), .writeAt ⟨1, 4⟩ ['a', '世', '\t', '\n', '́'],
    .resize ⟨7, 2⟩, .writeStyledAt ⟨9, 9⟩ none none 1#8 ['x'], .nextLine 3, .clearScreen],
    rfl, ?_, ?_, ?_, ?_⟩
  · intro s hs
    simp at hs
    subst hs
    decide
  · simp [opText, demoEnv, UEnv.w]
  · decide
  · decide

/-- The cells of a screen after plain text `text` has been written from position number `p`:
the text, with the attributes in force, in consecutive cells; if the cell just before was the left
half of a two-column character whose right half got overwritten, that cell is blank; all other
cells as before. -/
def plainResult (env : UEnv) (b : Buf) (p : Nat) (text : List Char) (c : Cursor) : Option Cell :=
  if p ≤ numOf b.size c ∧ numOf b.size c < p + text.length then
    text[numOf b.size c - p]?.map fun ch => ⟨b.fg, b.bg, b.style, [ch]⟩
  else if text ≠ [] ∧ numOf b.size c + 1 = p then
    (cellAt b c).map fun old => if HoldsWide env old then Cell.default else old
  else cellAt b c

theorem plainResult_eq {env : UEnv} {b b' : Buf} {p : Nat} {text : List Char} (hf : SameFrame b b')
    (h : ∀ i, b'.buffer[i]? = plainCells env b p text i) (c : Cursor) :
    cellAt b' c = plainResult env b p text c := by
  unfold cellAt plainResult
  have := h (numOf b.size c)
  unfold plainCells at this
  rw [hf.1]
  rw [show b'.buffer[c.line * b.size.columns + c.column]? = b'.buffer[numOf b.size c]? from rfl, this]
  simp only [isWide_iff]
  rfl

/-- C11: single-width text written at a position in bounds that fits on the screen. -/
theorem C11_plain_text (env : UEnv) (b : Buf) (h : GridOk b) (pos : Cursor)
    (hp : InBounds pos b.size) (text : List Char) (ht : ∀ ch ∈ text, Plain env ch)
    (hfit : numOf b.size pos + text.length ≤ b.size.lines * b.size.columns) :
    ∃ b', b.writeAt env pos text = some (b', .ok) ∧ SameFrame b b' ∧
      b'.cursor = posOf b.size (numOf b.size pos + text.length) ∧
      ∀ c, InBounds c b.size → cellAt b' c = plainResult env b (numOf b.size pos) text c := by
  obtain ⟨b', e, -, f, c, g⟩ := writeStr_plain text (b := { b with cursor := pos })
    (p := numOf b.size pos)
    ⟨h.size, h.len, h.backLen, h.text⟩ (by rw [posOf_numOf hp]) ht hfit
  refine ⟨b', ?_, f, c, fun q _ => ?_⟩
  · unfold Buf.writeAt; rw [tryCursorAt_ok.mpr hp]; exact e
  · exact plainResult_eq (b := { b with cursor := pos }) f g q

/-- C11: with no two-column character just before `pos`, every cell outside the text is exactly
as it was. -/
theorem C11_others_untouched (env : UEnv) (b : Buf) (h : GridOk b) (pos : Cursor)
    (hp : InBounds pos b.size) (text : List Char) (ht : ∀ ch ∈ text, Plain env ch)
    (hfit : numOf b.size pos + text.length ≤ b.size.lines * b.size.columns)
    (hprev : ∀ c cell, numOf b.size c + 1 = numOf b.size pos → cellAt b c = some cell →
      ¬ HoldsWide env cell) :
    ∃ b', b.writeAt env pos text = some (b', .ok) ∧
      ∀ c, InBounds c b.size →
        ¬ (numOf b.size pos ≤ numOf b.size c ∧ numOf b.size c < numOf b.size pos + text.length) →
        cellAt b' c = cellAt b c := by
  obtain ⟨b', e, -, -, g⟩ := C11_plain_text env b h pos hp text ht hfit
  refine ⟨b', e, fun c hc hn => ?_⟩
  rw [g c hc]
  unfold plainResult
  rw [if_neg hn]
  split
  · next h2 =>
    cases hcell : cellAt b c with
    | none => rfl
    | some cell => simp [hprev c cell h2.2 hcell]
  · rfl

/-- A case of C11 with a torn two-column character: the screen of the example holds `世` at
(0,1) and `hi` is written at (0,2), wrapping to the second line. -/
example : ∃ b : Buf, GridOk b ∧ InBounds ⟨0, 2⟩ b.size ∧ (∀ ch ∈ ['h', 'i'], Plain demoEnv ch) ∧
    numOf b.size ⟨0, 2⟩ + 2 ≤ b.size.lines * b.size.columns ∧
    (cellAt b ⟨0, 1⟩).any (fun c => decide (HoldsWide demoEnv c)) = true ∧
    (b.writeAt demoEnv ⟨0, 2⟩ ['h', 'i']).map (fun r => (r.1.buffer.map (·.text), r.1.cursor)) =
      some ([[' '], [' '], ['h'], ['i'], [' '], [' ']], ⟨1, 1⟩) := by
  refine ⟨{ (Buf.new ⟨2, 3⟩) with buffer := (Buf.new ⟨2, 3⟩).buffer.set 1 ⟨none, none, 0#8, ['世']⟩ },
    ⟨by decide, by decide, by decide, by decide⟩, by decide, ?_, by decide, by decide, by decide⟩
  intro ch hch
  simp at hch
  rcases hch with rfl | rfl <;> exact ⟨by decide, by decide, by decide⟩

/-- C12: a write at a position outside the screen changes nothing at all. -/
theorem C12_write_at_outside (env : UEnv) (b : Buf) (pos : Cursor) (hp : ¬ InBounds pos b.size)
    (text : List Char) (fg bg : Option Color) (st : Style) :
    b.writeAt env pos text = some (b, .oob) ∧
    b.writeStyledAt env pos fg bg st text = some (b, .oob) := by
  unfold Buf.writeAt Buf.writeStyledAt
  rw [tryCursorAt_oob.mpr hp]
  exact ⟨rfl, rfl⟩

example : ¬ InBounds ⟨1, 7⟩ (Buf.new ⟨3, 7⟩).size := by decide

/-- C12: single-width text running past the last cell: exactly the part that fits is written, the
call reports `OutOfBounds` and the cursor stays after the last cell. -/
theorem C12_text_cut_off_partial (env : UEnv) (b : Buf) (h : GridOk b) (pos : Cursor)
    (hp : InBounds pos b.size) (text : List Char) (ht : ∀ ch ∈ text, Plain env ch)
    (hlong : b.size.lines * b.size.columns < numOf b.size pos + text.length) :
    ∃ b', b.writeAt env pos text = some (b', .oob) ∧ SameFrame b b' ∧
      b'.cursor = ⟨b.size.lines, 0⟩ ∧
      ∀ c, InBounds c b.size → cellAt b' c = plainResult env b (numOf b.size pos)
        (text.take (b.size.lines * b.size.columns - numOf b.size pos)) c := by
  have hlt := numOf_lt hp
  generalize hm : b.size.lines * b.size.columns - numOf b.size pos = m at *
  have hlen : (text.take m).length = m := by rw [List.length_take]; omega
  obtain ⟨b', e, hi, f, c, g⟩ := writeStr_plain (text.take m) (b := { b with cursor := pos })
    (p := numOf b.size pos)
    ⟨h.size, h.len, h.backLen, h.text⟩ (by rw [posOf_numOf hp])
    (fun ch hch => ht ch (List.mem_of_mem_take hch)) (by rw [hlen]; simp only; omega)
  have hcur : b'.cursor = ⟨b.size.lines, 0⟩ := by
    rw [c, hlen, show numOf b.size pos + m = b.size.lines * b.size.columns by omega]
    unfold posOf
    rw [Nat.mul_div_cancel _ h.size.2.1, Nat.mul_mod_left]
  refine ⟨b', ?_, f, hcur, fun q _ => ?_⟩
  · unfold Buf.writeAt; rw [tryCursorAt_ok.mpr hp]
    simp only
    rw [← List.take_append_drop m text, writeStr_append_ok e]
    cases hd : text.drop m with
    | nil =>
      have := congrArg List.length hd
      rw [List.length_drop, List.length_nil] at this
      omega
    | cons ch rest =>
      refine writeStr_oob_plain ?_ (drawn_of_plain (ht ch (List.mem_of_mem_drop (i := m) ?_)))
      · rw [hcur]
        intro hh
        have := hh.1
        rw [f.1] at this
        simp at this
      · rw [hd]; exact List.mem_cons_self ..
  · exact plainResult_eq (b := { b with cursor := pos }) f g q

example : InBounds ⟨1, 1⟩ (Buf.new ⟨2, 3⟩).size ∧
    (Buf.new ⟨2, 3⟩).size.lines * (Buf.new ⟨2, 3⟩).size.columns <
      numOf (Buf.new ⟨2, 3⟩).size ⟨1, 1⟩ + ['a', 'b', 'c', 'd'].length ∧
    ((Buf.new ⟨2, 3⟩).writeAt demoEnv ⟨1, 1⟩ ['a', 'b', 'c', 'd']).map
      (fun r => r.1.buffer.map (·.text)) = some [[' '], [' '], [' '], [' '], ['a'], ['b']] := by
  decide

/-- C12: once the cursor is below the last line, no text without combining marks changes any
cell, whatever it contains. (A combining mark still belongs to the last character drawn.) -/
theorem C12_below_last_line (env : UEnv) (b : Buf) (h : GridOk b)
    (hc : b.size.lines ≤ b.cursor.line) (text : List Char)
    (ht : ∀ ch ∈ text, env.combining ch = false) (b' : Buf) (r : WRes)
    (e : b.writeStr env text = some (b', r)) :
    b'.buffer = b.buffer ∧ SameFrame b b' ∧ b.size.lines ≤ b'.cursor.line := by
  induction text generalizing b with
  | nil =>
    rw [Buf.writeStr, Option.some.injEq, Prod.mk.injEq] at e
    obtain ⟨rfl, rfl⟩ := e
    exact ⟨rfl, SameFrame.refl _, hc⟩
  | cons ch text ih =>
    have hnin : ¬ InBounds b.cursor b.size := fun hh => by have := hh.1; omega
    have step : ∀ b1 r1, b.writeChar env ch = some (b1, r1) →
        b1.buffer = b.buffer ∧ SameFrame b b1 ∧ b.size.lines ≤ b1.cursor.line := by
      intro b1 r1 e1
      by_cases htab : ch = '\t'
      · subst htab
        unfold Buf.writeChar at e1
        have : b.tryCursor = .oob := tryCursorAt_oob.mpr hnin
        rw [if_pos rfl, this, Option.some.injEq, Prod.mk.injEq] at e1
        obtain ⟨rfl, rfl⟩ := e1
        exact ⟨rfl, SameFrame.refl _, hc⟩
      · rw [writeChar_eq_NT htab] at e1
        rcases char_cases env ch htab with rfl | rfl | hm | hd | ⟨h1, h2, h3⟩
        · unfold Buf.writeCharNT at e1
          rw [if_pos rfl, Option.some.injEq, Prod.mk.injEq] at e1
          obtain ⟨rfl, rfl⟩ := e1
          exact ⟨rfl, ⟨rfl, rfl, rfl, rfl, rfl⟩, hc⟩
        · unfold Buf.writeCharNT uadd at e1
          rw [if_neg (by decide), if_pos rfl] at e1
          split at e1
          · simp at e1
            obtain ⟨rfl, rfl⟩ := e1
            exact ⟨rfl, ⟨rfl, rfl, rfl, rfl, rfl⟩, by simp; omega⟩
          · cases e1
        · have := ht ch (List.mem_cons_self ..)
          rw [hm.comb] at this
          cases this
        · rw [writeCharNT_oob hd hnin, Option.some.injEq, Prod.mk.injEq] at e1
          obtain ⟨rfl, rfl⟩ := e1
          exact ⟨rfl, SameFrame.refl _, hc⟩
        · rw [writeCharNT_invisible h1 h2 h3, Option.some.injEq, Prod.mk.injEq] at e1
          obtain ⟨rfl, rfl⟩ := e1
          exact ⟨rfl, SameFrame.refl _, hc⟩
    cases e1 : b.writeChar env ch with
    | none => rw [Buf.writeStr, e1] at e; cases e
    | some x =>
      obtain ⟨b1, r1⟩ := x
      obtain ⟨g1, f1, l1⟩ := step b1 r1 e1
      cases r1 with
      | ok =>
        rw [writeStr_cons e1] at e
        have hb1 : GridOk b1 := by
          refine ⟨?_, ?_, ?_, ?_⟩
          · rw [f1.1]; exact h.size
          · rw [g1, f1.1]; exact h.len
          · rw [f1.2.1, f1.1]; exact h.backLen
          · rw [g1]; exact h.text
        obtain ⟨g2, f2, l2⟩ := ih b1 hb1 (by rw [f1.1]; exact l1)
          (fun c hc => ht c (List.mem_cons_of_mem _ hc)) e
        exact ⟨g2.trans g1, SameFrame.trans f1 f2, by rw [← f1.1]; exact l2⟩
      | oob =>
        rw [writeStr_cons_oob e1, Option.some.injEq, Prod.mk.injEq] at e
        obtain ⟨rfl, rfl⟩ := e
        exact ⟨g1, f1, l1⟩

/-- C12 is false for a two-column character with one column left on the last line: the call
reports `OutOfBounds` but has overwritten the last cell. -/
theorem C12_wide_excess_overwrites :
    SpaceOk demoEnv ∧ GridOk (Buf.new ⟨1, 3⟩) ∧ InBounds ⟨0, 2⟩ (Buf.new ⟨1, 3⟩).size ∧
    ((Buf.new ⟨1, 3⟩).writeAt demoEnv ⟨0, 2⟩ ['世']).map
      (fun r => (r.2, cellAt r.1 ⟨0, 2⟩ = cellAt (Buf.new ⟨1, 3⟩) ⟨0, 2⟩)) =
        some (.oob, False) := by
  refine ⟨⟨by decide, by decide⟩, new_inv (by decide), by decide, ?_⟩
  have : ((Buf.new ⟨1, 3⟩).writeAt demoEnv ⟨0, 2⟩ ['世']) = some
      ({ (Buf.new ⟨1, 3⟩) with
          buffer := [Cell.default, Cell.default, ⟨none, none, 0#8, ['世']⟩]
          cursor := ⟨1, 0⟩ }, .oob) := by decide
  rw [this]
  simp [cellAt, Buf.new, Size.area, Cell.default]

/-- C13: carriage return. -/
theorem C13_carriage_return (env : UEnv) (b : Buf) :
    b.writeChar env '\r' = some ({ b with cursor := ⟨b.cursor.line, 0⟩ }, .ok) := rfl

/-- C13: newline; the only failure is a line number beyond the `usize` range. -/
theorem C13_newline (env : UEnv) (b : Buf) :
    b.writeChar env '\n' =
      if b.cursor.line + 1 ≤ usizeMax then
        some ({ b with cursor := ⟨b.cursor.line + 1, 0⟩ }, .ok)
      else none := by
  rw [writeChar_eq_NT (by decide)]
  unfold Buf.writeCharNT uadd
  rw [if_neg (by decide), if_pos rfl]
  split <;> rfl

/-- C13: a character of no width that is neither a control character handled above nor a combining
mark changes nothing. -/
theorem C13_invisible (env : UEnv) (b : Buf) (ch : Char) (h1 : ch ∉ ['\r', '\n', '\t'])
    (h2 : env.combining ch = false) (h3 : env.width ch = none ∨ env.width ch = some 0) :
    b.writeChar env ch = some (b, .ok) := by
  rw [writeChar_eq_NT (by intro h; simp [h] at h1)]
  refine writeCharNT_invisible h1 h2 ?_
  unfold UEnv.w
  rcases h3 with h | h <;> simp [h]

example : '\u0007' ∉ ['\r', '\n', '\t'] ∧ demoEnv.combining '\u0007' = false ∧
    demoEnv.width '\u0007' = none := by decide

/-- C13: tab on screen. The cells of the line from the cursor up to the tab target become spaces
with the attributes in force; the cursor goes to the target, or to the next line if that is the
line end. -/
theorem C13_tab (env : UEnv) (henv : SpaceOk env) (b : Buf) (h : GridOk b)
    (hc : InBounds b.cursor b.size) :
    ∃ b', b.writeChar env '\t' = some (b', .ok) ∧ SameFrame b b' ∧
      b'.cursor = (if tabTarget b.size.columns b.cursor.column = b.size.columns then
          ⟨b.cursor.line + 1, 0⟩
        else ⟨b.cursor.line, tabTarget b.size.columns b.cursor.column⟩) ∧
      b.cursor.column < tabTarget b.size.columns b.cursor.column ∧
      (∀ k, b.cursor.column ≤ k → k < tabTarget b.size.columns b.cursor.column →
        cellAt b' ⟨b.cursor.line, k⟩ = some ⟨b.fg, b.bg, b.style, [' ']⟩) ∧
      (∀ c, InBounds c b.size →
        ¬ (c.line = b.cursor.line ∧ b.cursor.column ≤ c.column ∧
          c.column < tabTarget b.size.columns b.cursor.column) →
        cellAt b' c = if numOf b.size c + 1 = numOf b.size b.cursor then
            (cellAt b c).map fun old => if HoldsWide env old then Cell.default else old
          else cellAt b c) := by
  have hcol := hc.2
  generalize hn : tabTarget b.size.columns b.cursor.column - b.cursor.column = n
  have hgt : b.cursor.column < tabTarget b.size.columns b.cursor.column := by
    unfold tabTarget; omega
  have hle : tabTarget b.size.columns b.cursor.column ≤ b.size.columns := by
    unfold tabTarget; omega
  have hmin : min (b.size.columns - b.cursor.column) (TAB_STOP - b.cursor.column % TAB_STOP) = n := by
    unfold tabTarget at hn; unfold TAB_STOP; omega
  have hfit : numOf b.size b.cursor + n ≤ b.size.lines * b.size.columns := by
    have h1 : (b.cursor.line + 1) * b.size.columns ≤ b.size.lines * b.size.columns :=
      Nat.mul_le_mul_right _ hc.1
    rw [Nat.add_mul] at h1
    unfold numOf
    omega
  obtain ⟨b', e, -, f, c, g⟩ := writeStr_plain (List.replicate n ' ') (b := b)
    (p := numOf b.size b.cursor) h (by rw [posOf_numOf hc])
    (fun ch hch => by rw [List.eq_of_mem_replicate hch]; exact plain_space henv)
    (by rw [List.length_replicate]; exact hfit)
  rw [List.length_replicate] at c
  refine ⟨b', ?_, f, ?_, hgt, ?_, ?_⟩
  · unfold Buf.writeChar
    have : b.tryCursor = .ok := tryCursorAt_ok.mpr hc
    rw [if_pos rfl, this]
    dsimp only [usub]
    rw [if_pos (by omega)]
    simp only [Option.bind_eq_bind, Option.bind_some]
    rw [hmin, tabLoop_eq, e]
  · rw [c, ← advance_eq h.size (by omega)]
    unfold advance
    rw [show b.cursor.column + n = tabTarget b.size.columns b.cursor.column by omega]
    by_cases ht : tabTarget b.size.columns b.cursor.column = b.size.columns
    · rw [if_pos (by omega), if_pos ht]
    · rw [if_neg (by omega), if_neg ht]
  · intro k hk1 hk2
    rw [plainResult_eq f g]
    unfold plainResult
    have hk : numOf b.size ⟨b.cursor.line, k⟩ = numOf b.size b.cursor + (k - b.cursor.column) := by
      unfold numOf; simp only; omega
    rw [hk, List.length_replicate, if_pos (by omega), Nat.add_sub_cancel_left,
      List.getElem?_replicate, if_pos (by omega)]
    rfl
  · intro q hq hnot
    rw [plainResult_eq f g]
    unfold plainResult
    rw [List.length_replicate, if_neg]
    · have : List.replicate n ' ' ≠ [] := by
        intro h0
        have := congrArg List.length h0
        simp at this; omega
      simp only [this, ne_eq, not_false_eq_true, true_and]
    · intro hh
      apply hnot
      have hlt : numOf b.size q < numOf b.size b.cursor + n := hh.2
      have hq' : posOf b.size (numOf b.size q) = q := posOf_numOf hq
      have hm : numOf b.size q = b.size.columns * b.cursor.line +
          (b.cursor.column + (numOf b.size q - numOf b.size b.cursor)) := by
        have : numOf b.size b.cursor = b.size.columns * b.cursor.line + b.cursor.column := by
          unfold numOf; rw [Nat.mul_comm]
        omega
      rw [hm] at hq'
      unfold posOf at hq'
      rw [Nat.mul_add_div h.size.2.1, Nat.mul_add_mod, Nat.div_eq_of_lt (by omega),
        Nat.mod_eq_of_lt (by omega)] at hq'
      rw [← hq']
      simp only
      omega

/-- C13: a tab with the cursor off screen changes nothing. -/
theorem C13_tab_outside (env : UEnv) (b : Buf) (hc : ¬ InBounds b.cursor b.size) :
    b.writeChar env '\t' = some (b, .oob) := by
  unfold Buf.writeChar
  have : b.tryCursor = .oob := tryCursorAt_oob.mpr hc
  rw [if_pos rfl, this]

example : SpaceOk demoEnv ∧ GridOk (Buf.new ⟨2, 20⟩) ∧
    InBounds ({ Buf.new ⟨2, 20⟩ with cursor := ⟨0, 11⟩ } : Buf).cursor (Buf.new ⟨2, 20⟩).size ∧
    tabTarget 20 11 = 16 ∧ tabTarget 20 16 = 20 :=
  ⟨⟨by decide, by decide⟩, new_inv (by decide), by decide, by decide, by decide⟩

end Mortal
