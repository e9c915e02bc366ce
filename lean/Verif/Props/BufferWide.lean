import Verif.Lemmas.BufferWide

/-! # C14, C15, C17: wide characters, combining marks, resize -/

namespace Mortal
open Spec

/-- C14: a two-column character that fits on the line: it is stored in the cursor's cell, the next
cell of the line becomes its blank right half, the cursor advances by two columns (to the next line
at the line end), and the only other cell that can change is the one just before, which is blanked
if it was the left half of another two-column character. -/
theorem C14_wide_fits (env : UEnv) (b : Buf) (h : GridOk b) (ch : Char) (hw : Wide env ch)
    (hc : InBounds b.cursor b.size) (hfit : b.cursor.column + 2 ≤ b.size.columns) :
    ∃ b', b.writeChar env ch = some (b', .ok) ∧ SameFrame b b' ∧
      cellAt b' b.cursor = some ⟨b.fg, b.bg, b.style, [ch]⟩ ∧
      cellAt b' ⟨b.cursor.line, b.cursor.column + 1⟩ = some ⟨b.fg, b.bg, b.style, [' ']⟩ ∧
      b'.cursor = (if b.cursor.column + 2 = b.size.columns then ⟨b.cursor.line + 1, 0⟩
        else ⟨b.cursor.line, b.cursor.column + 2⟩) ∧
      ∀ c, InBounds c b.size → c ≠ b.cursor → c ≠ ⟨b.cursor.line, b.cursor.column + 1⟩ →
        cellAt b' c = (cellAt b c).map fun old =>
          if numOf b.size c + 1 = numOf b.size b.cursor ∧ HoldsWide env old then Cell.default
          else old := by
  have hd := drawn_of_wide hw
  obtain ⟨b', e, -, f, hcur, g⟩ := writeChar_fit_cells h hd hc (by rw [w_wide hw]; exact hfit)
  rw [w_wide hw] at hcur g
  have hnext : b.cursor.line * b.size.columns + (b.cursor.column + 1) = b.ix + 1 := by
    rw [ix_eq]; unfold numOf; omega
  refine ⟨b', e, f, ?_, ?_, ?_, ?_⟩
  · unfold cellAt
    rw [f.1, g, if_pos (by rfl)]
  · unfold cellAt
    rw [f.1]
    simp only
    rw [hnext, g, if_neg (by omega), if_pos (by omega)]
  · rw [hcur]; unfold advance
    by_cases h2 : b.cursor.column + 2 = b.size.columns
    · rw [if_pos (by omega), if_pos h2]
    · rw [if_neg (by omega), if_neg h2]
  · intro c hin h1 h2
    unfold cellAt
    rw [f.1, g, if_neg, if_neg]
    · congr 1
      funext old
      simp only [isWide_iff]
      rfl
    · intro hh
      apply h2
      refine asIndex_inj hin (d := ⟨b.cursor.line, b.cursor.column + 1⟩) ⟨hc.1, ?_⟩ ?_
      · simp only; omega
      · unfold Cursor.asIndex; simp only; omega
    · intro hh
      exact h1 (asIndex_inj hin hc hh)

example : Wide demoEnv '世' ∧ GridOk (Buf.new ⟨2, 4⟩) ∧
    InBounds (Buf.new ⟨2, 4⟩).cursor (Buf.new ⟨2, 4⟩).size ∧
    (Buf.new ⟨2, 4⟩).cursor.column + 2 ≤ (Buf.new ⟨2, 4⟩).size.columns :=
  ⟨⟨by decide, by decide, by decide⟩, new_inv (by decide), by decide, by decide⟩

/-- C14: along any history in which no two-column character is written with a single column left
and no resize cuts one in half, the two halves of every two-column character stay together.
Partial: the two excluded cases do tear characters, see below. -/
theorem C14_never_torn_partial (env : UEnv) (henv : SpaceOk env) (ops : List BufOp) (b b' : Buf)
    (h : GridOk b) (hn : NoTorn env b) (hs : SafeRun env b ops)
    (e : runOps env ops b = some b') : NoTorn env b' := by
  obtain ⟨h1, h2⟩ := noTorn_runOps henv ops b h ((noTorn_iff h).mp hn) hs e
  exact (noTorn_iff h1).mpr h2

/-- A history meeting the hypotheses of `C14_never_torn_partial`: `世` is written, then its right
half is overwritten, then its left half. -/
example : ∃ (ops : List BufOp) (b' : Buf), 3 ≤ ops.length ∧ GridOk (Buf.new ⟨2, 4⟩) ∧
    NoTorn demoEnv (Buf.new ⟨2, 4⟩) ∧ SafeRun demoEnv (Buf.new ⟨2, 4⟩) ops ∧
    runOps demoEnv ops (Buf.new ⟨2, 4⟩) = some b' := by
  refine ⟨[.writeAt ⟨0, 1⟩ ['世'], .writeAt ⟨0, 2⟩ ['x'], .resize ⟨1, 3⟩],
    (runOps demoEnv [.writeAt ⟨0, 1⟩ ['世'], .writeAt ⟨0, 2⟩ ['x'], .resize ⟨1, 3⟩]
      (Buf.new ⟨2, 4⟩)).get (by decide), by decide, new_inv (by decide), ?_, ?_, by simp⟩
  · intro c cell _ hcell hwd
    obtain ⟨ch, rest, h1, h2⟩ := hwd
    unfold cellAt at hcell
    rw [List.eq_of_mem_replicate (List.mem_of_getElem? hcell)] at h1
    simp [Cell.default] at h1
    rw [← h1.1] at h2
    exact absurd h2 (by decide)
  · refine ⟨⟨by decide, by decide, fun _ _ => trivial⟩, fun b1 e1 => ⟨⟨?_, ?_, fun _ _ => trivial⟩,
      fun b2 e2 => ⟨⟨by decide, ?_⟩, fun _ _ => trivial⟩⟩⟩
    all_goals
      have h1 : BufOp.run demoEnv (Buf.new ⟨2, 4⟩) (.writeAt ⟨0, 1⟩ ['世']) = some
        { Buf.new ⟨2, 4⟩ with
          buffer := [.default, ⟨none, none, 0#8, ['世']⟩, .default, .default, .default, .default,
            .default, .default]
          cursor := ⟨0, 3⟩ } := by decide
      rw [h1, Option.some.injEq] at e1
      subst e1
    · decide
    · decide
    · have h2 : BufOp.run demoEnv { Buf.new ⟨2, 4⟩ with
          buffer := [.default, ⟨none, none, 0#8, ['世']⟩, .default, .default, .default, .default,
            .default, .default]
          cursor := ⟨0, 3⟩ } (.writeAt ⟨0, 2⟩ ['x']) = some
        { Buf.new ⟨2, 4⟩ with
          buffer := [.default, .default, ⟨none, none, 0#8, ['x']⟩, .default, .default, .default,
            .default, .default]
          cursor := ⟨0, 3⟩ } := by decide
      rw [h2, Option.some.injEq] at e2
      subst e2
      intro c cell hin hcol hcell
      have hc2 : c.column = 2 := by simp at hcol; omega
      have hl : c.line = 0 ∨ c.line = 1 := by have := hin.1; simp [Buf.new] at this; omega
      obtain ⟨l, k⟩ := c
      simp only at hc2 hl
      subst hc2
      rcases hl with rfl | rfl
      all_goals
        simp [cellAt, Buf.new] at hcell
        subst hcell
        decide

/-- C14 is false with a single column left: the leftover cell is not blank but holds a second copy
of the character, for every buffer, every two-column character and every such cursor. -/
theorem C14_wrap_duplicates (env : UEnv) (b : Buf) (h : GridOk b) (ch : Char) (hw : Wide env ch)
    (hc : InBounds b.cursor b.size) (hone : b.cursor.column + 1 = b.size.columns)
    (hcols : 2 ≤ b.size.columns) (hnext : b.cursor.line + 1 < b.size.lines) :
    ∃ b', b.writeChar env ch = some (b', .ok) ∧
      cellAt b' b.cursor = some ⟨b.fg, b.bg, b.style, [ch]⟩ ∧
      cellAt b' ⟨b.cursor.line + 1, 0⟩ = some ⟨b.fg, b.bg, b.style, [ch]⟩ ∧
      cellAt b' ⟨b.cursor.line + 1, 1⟩ = some ⟨b.fg, b.bg, b.style, [' ']⟩ := by
  have hd := drawn_of_wide hw
  have hw2 := w_wide hw
  have hend : (b.cursor.line + 2) * b.size.columns ≤ b.size.lines * b.size.columns :=
    Nat.mul_le_mul_right _ hnext
  have e2 : (b.cursor.line + 2) * b.size.columns =
    (b.cursor.line + 1) * b.size.columns + b.size.columns := by simp only [Nat.add_mul]; omega
  have e1 : (b.cursor.line + 1) * b.size.columns = b.ix + 1 := by
    rw [ix_eq]; unfold numOf; rw [Nat.add_mul]; omega
  have hlen : (setRange (b.cellOf ch) b.ix (b.size.columns - b.cursor.column)
      (tear env b.ix b.buffer)).length = b.size.lines * b.size.columns := by
    rw [setRange_length, tear_length, h.len]
  rw [writeChar_eq_NT hd.tab, writeCharNT_wrap h hd hc (by omega) (by omega), if_pos hnext]
  refine ⟨_, rfl, ?_, ?_, ?_⟩
  all_goals
    unfold cellAt
    simp only
    rw [placed_get _ _ _ _ _ (by rw [hlen]; omega), hw2]
  · rw [if_neg, if_neg, setRange_get, if_pos]
    · refine ⟨Nat.le_refl _, ?_, ?_⟩
      · show b.ix < _; omega
      · rw [tear_length, h.len]; exact numOf_lt hc
    · show ¬ (_ ≤ b.ix ∧ _); omega
    · show ¬ b.ix = _; omega
  · rw [if_pos (by simp)]
  · rw [if_neg (by omega), if_pos ⟨by omega, by omega, by rw [hlen]; omega⟩]

example : Wide demoEnv '世' ∧ GridOk { Buf.new ⟨2, 3⟩ with cursor := ⟨0, 2⟩ } ∧
    InBounds ⟨0, 2⟩ ⟨2, 3⟩ :=
  ⟨⟨by decide, by decide, by decide⟩, ⟨by decide, by decide, by decide, by decide⟩, by decide⟩

/-- C14 is false across a resize: shrinking the screen can leave the left half of a two-column
character alone in the last column. -/
theorem C14_resize_tears :
    ∃ b, runOps demoEnv [.writeAt ⟨0, 1⟩ ['世'], .resize ⟨1, 2⟩] (Buf.new ⟨1, 3⟩) = some b ∧
      ¬ NoTorn demoEnv b := by
  refine ⟨{ Buf.new ⟨1, 2⟩ with
      buffer := [.default, ⟨none, none, 0#8, ['世']⟩]
      back := [.invalid, .invalid]
      cursor := ⟨1, 0⟩ }, by decide, ?_⟩
  intro hn
  have := hn ⟨0, 1⟩ ⟨none, none, 0#8, ['世']⟩ (by decide) (by decide) (by decide)
  exact absurd this.1 (by decide)

/-! ## C15 -/

/-- C15: combining marks written after a one-column character extend exactly that character's
cell, at whatever position it was written (including the last cell of a line or of the screen); the
cursor and all other cells are as after the character alone. Partial: for a two-column base
character the claim is false, see below. -/
theorem C15_marks_attach_partial (env : UEnv) (b : Buf) (h : GridOk b) (ch : Char)
    (hp : Plain env ch) (hc : InBounds b.cursor b.size) (ms : List Char)
    (hm : ∀ m ∈ ms, Mark env m) :
    ∃ b1 b2, b.writeStr env [ch] = some (b1, .ok) ∧ b.writeStr env (ch :: ms) = some (b2, .ok) ∧
      b2.cursor = b1.cursor ∧
      cellAt b2 b.cursor = some ⟨b.fg, b.bg, b.style, ch :: ms⟩ ∧
      ∀ c, InBounds c b.size → c ≠ b.cursor → cellAt b2 c = cellAt b1 c := by
  have hcol := hc.2
  have hw := w_plain hp
  obtain ⟨b1, e1, i1, f1, c1, g1⟩ := writeChar_fit_cells h (drawn_of_plain hp) hc
    (by rw [hw]; omega)
  rw [hw] at c1
  obtain ⟨b2, e2, f2, c2, g2⟩ := writeStr_marks ms i1 hm (d := b.cursor)
    (by rw [c1, f1.1]; exact markPos_advance hc) (by rw [f1.1]; exact hc)
  refine ⟨b1, b2, writeStr_cons e1, (writeStr_cons e1).trans e2, c2, ?_, ?_⟩
  · have hsz : b2.size = b.size := f2.1.trans f1.1
    unfold cellAt
    rw [hsz, show b.cursor.line * b.size.columns + b.cursor.column = b.ix from rfl, g2,
      f1.1, g1, if_pos rfl]
    simp [ix_eq, Buf.cellOf]
  · intro c hin hne
    unfold cellAt
    rw [f2.1, f1.1, g2, f1.1]
    have : ¬ c.line * b.size.columns + c.column = numOf b.size b.cursor :=
      fun hh => hne (asIndex_inj hin hc hh)
    simp [this]

example : Plain demoEnv 'e' ∧ (∀ m ∈ ['\u0301', '\u0301'], Mark demoEnv m) ∧
    InBounds (Buf.new ⟨1, 1⟩).cursor (Buf.new ⟨1, 1⟩).size ∧
    ((Buf.new ⟨1, 1⟩).writeStr demoEnv ['e', '\u0301', '\u0301']).map
      (fun r => (r.1.buffer.map (·.text), r.1.cursor)) =
      some ([['e', '\u0301', '\u0301']], ⟨1, 0⟩) := by
  refine ⟨⟨by decide, by decide, by decide⟩, ?_, by decide, by decide⟩
  intro m hm
  simp at hm
  subst hm
  exact ⟨by decide, by decide⟩

/-- C15: a combining mark at the first cell of the screen is ignored. -/
theorem C15_ignored_at_origin (env : UEnv) (b : Buf) (h : GridOk b) (hc : b.cursor = ⟨0, 0⟩)
    (m : Char) (hm : Mark env m) : b.writeChar env m = some (b, .ok) := by
  have htab : m ≠ '\t' := by have := hm.ctl; simp at this; exact this.2.2
  have hp : markPos b.size b.cursor = none := by rw [hc]; rfl
  rw [writeChar_eq_NT htab]
  rcases writeCharNT_comb h hm with ⟨_, e⟩ | ⟨d, hd, _⟩ | ⟨d, hd, _⟩
  · exact e
  · rw [hp] at hd; cases hd
  · rw [hp] at hd; cases hd

/-- C15 is false after a two-column character: the mark goes to the blank right half, a cell that
refresh never draws, instead of to the character. -/
theorem C15_wide_base_misses (env : UEnv) (b : Buf) (h : GridOk b) (ch : Char) (hw : Wide env ch)
    (hc : InBounds b.cursor b.size) (hfit : b.cursor.column + 2 < b.size.columns) (m : Char)
    (hm : Mark env m) :
    ∃ b', b.writeStr env [ch, m] = some (b', .ok) ∧
      cellAt b' b.cursor = some ⟨b.fg, b.bg, b.style, [ch]⟩ ∧
      cellAt b' ⟨b.cursor.line, b.cursor.column + 1⟩ = some ⟨b.fg, b.bg, b.style, [' ', m]⟩ := by
  have hw2 := w_wide hw
  obtain ⟨b1, e1, i1, f1, c1, g1⟩ := writeChar_fit_cells h (drawn_of_wide hw) hc
    (by rw [hw2]; omega)
  rw [hw2] at c1 g1
  have hcur : b1.cursor = ⟨b.cursor.line, b.cursor.column + 2⟩ := by
    rw [c1]; unfold advance; rw [if_neg (by omega)]
  obtain ⟨b2, e2, f2, c2, g2⟩ := writeStr_marks [m] i1 (by simpa using hm)
    (d := ⟨b.cursor.line, b.cursor.column + 1⟩)
    (by rw [hcur]; simp [markPos]) (by rw [f1.1]; exact ⟨hc.1, by simp only; omega⟩)
  have hsz : b2.size = b.size := f2.1.trans f1.1
  have hnum : numOf b.size ⟨b.cursor.line, b.cursor.column + 1⟩ = b.ix + 1 := by
    rw [ix_eq]; unfold numOf; simp only; omega
  refine ⟨b2, (writeStr_cons e1).trans e2, ?_, ?_⟩
  · unfold cellAt
    rw [hsz, show b.cursor.line * b.size.columns + b.cursor.column = b.ix from rfl, g2, f1.1, hnum,
      g1, if_pos rfl]
    simp [Buf.cellOf]
  · unfold cellAt
    rw [hsz, show (⟨b.cursor.line, b.cursor.column + 1⟩ : Cursor).line * b.size.columns +
      (⟨b.cursor.line, b.cursor.column + 1⟩ : Cursor).column = b.ix + 1 from hnum, g2, f1.1, hnum,
      g1, if_neg (by omega), if_pos (by omega)]
    simp [Buf.cellOf]

/-! ## C17 -/

/-- C17: resize. Every position of the new screen that existed before keeps its cell, every other
one is blank, cursor and attributes are unchanged, and the record of what the terminal shows is
invalidated everywhere, so that no cell counts as already displayed. -/
theorem C17_resize (b : Buf) (h : GridOk b) (s : Size) (hs : GoodSize s) :
    ∃ b', b.resize s = some b' ∧ b'.size = s ∧ b'.cursor = b.cursor ∧
      (b'.fg, b'.bg, b'.style) = (b.fg, b.bg, b.style) ∧
      (∀ c, InBounds c s →
        cellAt b' c = if InBounds c b.size then cellAt b c else some ⟨none, none, 0#8, [' ']⟩) ∧
      (∀ c, InBounds c s → b'.back[numOf s c]? ≠ b'.buffer[numOf s c]?) := by
  obtain ⟨b', e, hi, hsz, hc, h1, h2, h3, hback, g⟩ := resize_inv h hs
  refine ⟨b', e, hsz, hc, by rw [h1, h2, h3], fun c hin => ?_, fun c hin => ?_⟩
  · unfold cellAt
    rw [hsz, g _ _ hin.1 hin.2]
    rfl
  · have hlt := numOf_lt hin
    intro heq
    rw [hback, List.getElem?_replicate, if_pos (by unfold Size.area; exact hlt)] at heq
    have := hi.text _ (List.mem_of_getElem? heq.symm)
    exact this rfl

example : GridOk (Buf.new ⟨3, 5⟩) ∧ GoodSize ⟨5, 2⟩ := ⟨new_inv (by decide), by decide⟩

end Mortal
