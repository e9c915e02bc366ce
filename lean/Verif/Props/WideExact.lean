import Verif.Props.BufferWide

/-! # C14 and C15: exactly what happens to two-column characters in the cases that go wrong -/

namespace Mortal
open Spec

/-- C14 with a single column left, exactly: the leftover cell takes a copy of the character, a
two-column character to its left is blanked, the character and its blank right half take the first
two cells of the next line, and the cursor follows them; no other cell changes. -/
theorem C14_wrap_exact (env : UEnv) (b : Buf) (h : GridOk b) (ch : Char) (hw : Wide env ch)
    (hc : InBounds b.cursor b.size) (hone : b.cursor.column + 1 = b.size.columns)
    (hcols : 2 ≤ b.size.columns) (hnext : b.cursor.line + 1 < b.size.lines) :
    ∃ b', b.writeChar env ch = some (b', .ok) ∧ SameFrame b b' ∧
      b'.cursor = (if b.size.columns = 2 then ⟨b.cursor.line + 2, 0⟩ else ⟨b.cursor.line + 1, 2⟩) ∧
      cellAt b' b.cursor = some ⟨b.fg, b.bg, b.style, [ch]⟩ ∧
      cellAt b' ⟨b.cursor.line + 1, 0⟩ = some ⟨b.fg, b.bg, b.style, [ch]⟩ ∧
      cellAt b' ⟨b.cursor.line + 1, 1⟩ = some ⟨b.fg, b.bg, b.style, [' ']⟩ ∧
      ∀ c, InBounds c b.size → c ≠ b.cursor → c ≠ ⟨b.cursor.line + 1, 0⟩ →
        c ≠ ⟨b.cursor.line + 1, 1⟩ →
        cellAt b' c = (cellAt b c).map fun old =>
          if numOf b.size c + 1 = numOf b.size b.cursor ∧ HoldsWide env old then Cell.default
          else old := by
  have hd := drawn_of_wide hw
  have hw2 := w_wide hw
  have hend : (b.cursor.line + 2) * b.size.columns ≤ b.size.lines * b.size.columns :=
    Nat.mul_le_mul_right _ hnext
  have e2 : (b.cursor.line + 2) * b.size.columns =
    (b.cursor.line + 1) * b.size.columns + b.size.columns := by simp only [Nat.add_mul]; omega
  have e1 : (b.cursor.line + 1) * b.size.columns = b.ix + 1 := by
    rw [ix_eq]; unfold numOf; rw [Nat.add_mul]; omega
  have hlen : (setRange (b.cellOf ch) b.ix (b.size.columns - b.cursor.column)
      (tear env b.ix b.buffer)).length = b.size.lines * b.size.columns := by
    rw [setRange_length, tear_length, h.len]
  rw [writeChar_eq_NT hd.tab, writeCharNT_wrap h hd hc (by omega) (by omega), if_pos hnext]
  refine ⟨_, rfl, ⟨rfl, rfl, rfl, rfl, rfl⟩, ?_, ?_, ?_, ?_, fun c hin n1 n2 n3 => ?_⟩
  · dsimp only
    rw [hw2]
    unfold advance
    by_cases h2 : b.size.columns = 2
    · rw [if_pos (by simp only; omega), if_pos h2]
    · rw [if_neg (by simp only; omega), if_neg h2]
  all_goals
    unfold cellAt
    simp only
    rw [placed_get _ _ _ _ _ (by rw [hlen]; omega), hw2]
  · rw [if_neg, if_neg, setRange_get, if_pos]
    · refine ⟨Nat.le_refl _, ?_, ?_⟩
      · show b.ix < _; omega
      · rw [tear_length, h.len]; exact numOf_lt hc
    · show ¬ (_ ≤ b.ix ∧ _); omega
    · show ¬ b.ix = _; omega
  · rw [if_pos (by simp)]
  · rw [if_neg (by omega), if_pos ⟨by omega, by omega, by rw [hlen]; omega⟩]
  · have m1 : ¬ c.asIndex b.size = b.ix := fun hh => n1 (asIndex_inj hin hc hh)
    have m2 : ¬ c.asIndex b.size = (b.cursor.line + 1) * b.size.columns := by
      intro hh
      refine n2 (asIndex_inj hin (d := ⟨b.cursor.line + 1, 0⟩) ⟨hnext, by simp only; omega⟩ ?_)
      unfold Cursor.asIndex at hh ⊢
      exact hh
    have m3 : ¬ c.asIndex b.size = (b.cursor.line + 1) * b.size.columns + 1 := by
      intro hh
      refine n3 (asIndex_inj hin (d := ⟨b.cursor.line + 1, 1⟩) ⟨hnext, by simp only; omega⟩ ?_)
      unfold Cursor.asIndex at hh ⊢
      exact hh
    rw [show c.line * b.size.columns + c.column = c.asIndex b.size from rfl,
      if_neg m2, if_neg (by omega), setRange_get, if_neg (by omega), tear_get]
    congr 1
    funext old
    simp only [isWide_iff]
    rfl

/-- `世` is written with one column left, next to a `世` that it tears. -/
example : Wide demoEnv '世' ∧ (∃ b, (Buf.new ⟨2, 3⟩).writeStr demoEnv ['a', '世'] = some (b, .ok) ∧
    ({ b with cursor := ⟨0, 2⟩ } : Buf).writeChar demoEnv '世' = some
      ({ b with
          buffer := [⟨none, none, 0, ['a']⟩, Cell.default, ⟨none, none, 0, ['世']⟩] ++
            [⟨none, none, 0, ['世']⟩, ⟨none, none, 0, [' ']⟩, Cell.default]
          cursor := ⟨1, 2⟩ }, .ok)) := by
  refine ⟨⟨by decide, by decide, by decide⟩, ?_⟩
  refine ⟨((Buf.new ⟨2, 3⟩).writeStr demoEnv ['a', '世'] |>.get (by decide)).1, by decide, by decide⟩

/-- C15 after a two-column character that fits, exactly: all marks are appended to the blank in its
right half. The cursor and all other cells, that of the character among them, are as without the
marks. -/
theorem C15_wide_base_exact (env : UEnv) (b : Buf) (h : GridOk b) (ch : Char) (hw : Wide env ch)
    (hc : InBounds b.cursor b.size) (hfit : b.cursor.column + 2 ≤ b.size.columns) (ms : List Char)
    (hm : ∀ m ∈ ms, Mark env m) :
    ∃ b1 b2, b.writeStr env [ch] = some (b1, .ok) ∧ b.writeStr env (ch :: ms) = some (b2, .ok) ∧
      b2.cursor = b1.cursor ∧
      cellAt b2 ⟨b.cursor.line, b.cursor.column + 1⟩ = some ⟨b.fg, b.bg, b.style, ' ' :: ms⟩ ∧
      cellAt b2 b.cursor = some ⟨b.fg, b.bg, b.style, [ch]⟩ ∧
      ∀ c, InBounds c b.size → c ≠ ⟨b.cursor.line, b.cursor.column + 1⟩ →
        cellAt b2 c = cellAt b1 c := by
  have hw2 := w_wide hw
  obtain ⟨b1, e1, i1, f1, c1, g1⟩ := writeChar_fit_cells h (drawn_of_wide hw) hc
    (by rw [hw2]; omega)
  rw [hw2] at c1 g1
  have hin : InBounds ⟨b.cursor.line, b.cursor.column + 1⟩ b.size := ⟨hc.1, by simp only; omega⟩
  have hp : markPos b1.size b1.cursor = some ⟨b.cursor.line, b.cursor.column + 1⟩ := by
    rw [c1, f1.1]
    unfold advance
    by_cases h2 : b.cursor.column + 2 = b.size.columns
    · rw [if_pos (by omega)]
      simp [markPos, show b.size.columns - 1 = b.cursor.column + 1 by omega]
    · rw [if_neg (by omega)]
      simp [markPos]
  obtain ⟨b2, e2, f2, c2, g2⟩ := writeStr_marks ms i1 hm hp (by rw [f1.1]; exact hin)
  have hsz : b2.size = b.size := f2.1.trans f1.1
  have hnum : numOf b.size ⟨b.cursor.line, b.cursor.column + 1⟩ = b.ix + 1 := by
    rw [ix_eq]; unfold numOf; simp only; omega
  refine ⟨b1, b2, writeStr_cons e1, (writeStr_cons e1).trans e2, c2, ?_, ?_, ?_⟩
  · unfold cellAt
    rw [hsz, show (⟨b.cursor.line, b.cursor.column + 1⟩ : Cursor).line * b.size.columns +
      (⟨b.cursor.line, b.cursor.column + 1⟩ : Cursor).column = b.ix + 1 from hnum, g2, f1.1, hnum,
      g1, if_neg (by omega), if_pos (by omega)]
    simp [Buf.cellOf]
  · unfold cellAt
    rw [hsz, show b.cursor.line * b.size.columns + b.cursor.column = b.ix from rfl, g2, f1.1, hnum,
      g1, if_pos rfl]
    simp [Buf.cellOf]
  · intro c hinc hne
    unfold cellAt
    rw [f2.1, f1.1, g2, f1.1]
    have : ¬ c.line * b.size.columns + c.column =
        numOf b.size ⟨b.cursor.line, b.cursor.column + 1⟩ :=
      fun hh => hne (asIndex_inj hinc hin hh)
    simp [this]

/-- Two marks after `世` at the end of a line. -/
example : InBounds (Buf.new ⟨1, 2⟩).cursor ⟨1, 2⟩ ∧ (∀ m ∈ ['́', '́'], Mark demoEnv m) ∧
    ((Buf.new ⟨1, 2⟩).writeStr demoEnv ['世', '́', '́']).map
      (fun r => (r.1.buffer.map (·.text), r.1.cursor)) =
      some ([['世'], [' ', '́', '́']], ⟨1, 0⟩) := by
  refine ⟨by decide, ?_, by decide⟩
  intro m hm
  simp at hm
  subst hm
  exact ⟨by decide, by decide⟩

end Mortal
