import Verif.Model.Buffer
import Verif.Spec.Buffer

/-! # Closed forms of the buffer operations -/

namespace Mortal
open Spec

/-- Replace the `n` cells from index `s` by `x`. -/
def setRange (x : Cell) : Nat → Nat → List Cell → List Cell
  | _, 0, l => l
  | s, n + 1, l => setRange x (s + 1) n (l.set s x)

theorem setRange_length (x : Cell) (s n : Nat) (l : List Cell) :
    (setRange x s n l).length = l.length := by
  induction n generalizing s l with
  | zero => rfl
  | succ n ih => rw [setRange, ih, List.length_set]

theorem setRange_get (x : Cell) (s n : Nat) (l : List Cell) (i : Nat) :
    (setRange x s n l)[i]? =
      if s ≤ i ∧ i < s + n ∧ i < l.length then some x else l[i]? := by
  induction n generalizing s l with
  | zero => rw [setRange, if_neg (by omega)]
  | succ n ih =>
    rw [setRange, ih, List.length_set, List.getElem?_set]
    by_cases h1 : s + 1 ≤ i ∧ i < s + 1 + n ∧ i < l.length
    · rw [if_pos h1, if_pos (by omega)]
    · rw [if_neg h1]
      by_cases h2 : s = i
      · rw [if_pos h2]
        subst h2
        by_cases h3 : s < l.length
        · rw [if_pos h3, if_pos (by omega)]
        · rw [if_neg h3, if_neg (by omega), List.getElem?_eq_none (by omega)]
      · rw [if_neg h2, if_neg (by omega)]

/-- Blank cell `p - 1` if it is wide. -/
def tear (env : UEnv) (p : Nat) (l : List Cell) : List Cell :=
  if p = 0 then l else l.modify (p - 1) fun c => if c.isWide env then Cell.default else c

theorem tear_length (env : UEnv) (p : Nat) (l : List Cell) :
    (tear env p l).length = l.length := by
  unfold tear; split <;> simp

theorem tear_get (env : UEnv) (p : Nat) (l : List Cell) (i : Nat) :
    (tear env p l)[i]? =
      l[i]?.map fun c => if i + 1 = p ∧ c.isWide env = true then Cell.default else c := by
  unfold tear
  split
  · next h =>
    subst h
    have : ∀ c : Cell, ¬ (i + 1 = 0 ∧ c.isWide env = true) := by intro c h; omega
    simp
  · next h =>
    rw [List.getElem?_modify]
    by_cases h1 : p - 1 = i
    · have : i + 1 = p := by omega
      simp [h1, this]
    · have : ¬ i + 1 = p := by omega
      simp [h1, this]

namespace Buf

/-- The grid facts (`Spec.GridOk`). -/
abbrev Inv (b : Buf) : Prop := GridOk b

/-- Index of the cursor. -/
abbrev ix (b : Buf) : Nat := b.cursor.asIndex b.size

/-- The cell `set_cell` writes. -/
abbrev cellOf (b : Buf) (ch : Char) : Cell := ⟨b.fg, b.bg, b.style, [ch]⟩

end Buf

theorem asIndex_lt {c : Cursor} {s : Size} (h : InBounds c s) : c.asIndex s < s.lines * s.columns := by
  obtain ⟨h1, h2⟩ := h
  unfold Cursor.asIndex
  have : (c.line + 1) * s.columns ≤ s.lines * s.columns := Nat.mul_le_mul_right _ h1
  rw [Nat.add_mul] at this
  omega

/-- Cells from column `c` to the end of its line are inside the grid. -/
theorem asIndex_add_lt {c : Cursor} {s : Size} (h : InBounds c s) {k : Nat}
    (hk : c.column + k ≤ s.columns) : c.asIndex s + k ≤ s.lines * s.columns := by
  obtain ⟨h1, h2⟩ := h
  unfold Cursor.asIndex
  have : (c.line + 1) * s.columns ≤ s.lines * s.columns := Nat.mul_le_mul_right _ h1
  rw [Nat.add_mul] at this
  omega

theorem asIndex_inj {c d : Cursor} {s : Size} (hc : InBounds c s) (hd : InBounds d s)
    (h : c.asIndex s = d.asIndex s) : c = d := by
  obtain ⟨h1, h2⟩ := hc
  obtain ⟨h3, h4⟩ := hd
  have hcol : 0 < s.columns := by omega
  unfold Cursor.asIndex at h
  have e1 : (c.line * s.columns + c.column) / s.columns = c.line := by
    rw [Nat.mul_comm, Nat.mul_add_div hcol, Nat.div_eq_of_lt h2]; rfl
  have e2 : (d.line * s.columns + d.column) / s.columns = d.line := by
    rw [Nat.mul_comm, Nat.mul_add_div hcol, Nat.div_eq_of_lt h4]; rfl
  have e3 : (c.line * s.columns + c.column) % s.columns = c.column := by
    rw [Nat.mul_comm, Nat.mul_add_mod, Nat.mod_eq_of_lt h2]
  have e4 : (d.line * s.columns + d.column) % s.columns = d.column := by
    rw [Nat.mul_comm, Nat.mul_add_mod, Nat.mod_eq_of_lt h4]
  rw [h] at e1 e3
  cases c; cases d
  simp_all

theorem tryCursorAt_ok {b : Buf} {pos : Cursor} : b.tryCursorAt pos = .ok ↔ InBounds pos b.size := by
  unfold Buf.tryCursorAt InBounds
  split
  · simp; omega
  · simp; omega

theorem tryCursorAt_oob {b : Buf} {pos : Cursor} :
    b.tryCursorAt pos = .oob ↔ ¬ InBounds pos b.size := by
  unfold Buf.tryCursorAt InBounds
  split
  · simp; omega
  · simp; omega

theorem modCell_eq {b : Buf} {pos : Cursor} {f : Cell → Cell}
    (h : pos.asIndex b.size < b.buffer.length) :
    b.modCell pos f = some { b with buffer := b.buffer.modify (pos.asIndex b.size) f } := by
  unfold Buf.modCell
  rw [List.getElem?_eq_getElem h]
  dsimp only
  congr 2
  apply List.ext_getElem?
  intro i
  rw [List.getElem?_set, List.getElem?_modify]
  split
  · next he => subst he; rw [List.getElem?_eq_getElem h]; simp
  · next he => simp

theorem setCell_eq {b : Buf} {pos : Cursor} {ch : Char}
    (h : pos.asIndex b.size < b.buffer.length) :
    b.setCell pos ch =
      some { b with buffer := b.buffer.set (pos.asIndex b.size) (b.cellOf ch) } := by
  unfold Buf.setCell Buf.modCell
  rw [List.getElem?_eq_getElem h]

theorem previous_eq {c : Cursor} {s : Size} (hs : GoodSize s) :
    c.previous s = some (if c.column = 0 then (if c.line = 0 then none
      else some ⟨c.line - 1, s.columns - 1⟩) else some ⟨c.line, c.column - 1⟩) := by
  unfold Cursor.previous usub
  have : 1 ≤ s.columns := hs.2.1
  split
  · split
    · rfl
    · rfl
  · rfl

/-- The previous cell of an in-bounds position is the one with the preceding index. -/
theorem previous_ix {c : Cursor} {s : Size} (hs : GoodSize s) (h : InBounds c s) :
    (c.asIndex s = 0 ∧ c.previous s = some none) ∨
    (∃ d, c.previous s = some (some d) ∧ InBounds d s ∧ 0 < c.asIndex s ∧
      d.asIndex s = c.asIndex s - 1) := by
  rw [previous_eq hs]
  obtain ⟨h1, h2⟩ := h
  obtain ⟨g1, g2, _, _⟩ := hs
  by_cases hc : c.column = 0
  · rw [if_pos hc]
    by_cases hl : c.line = 0
    · left; rw [if_pos hl]; exact ⟨by simp [Cursor.asIndex, hc, hl], rfl⟩
    · right
      rw [if_neg hl]
      refine ⟨_, rfl, ⟨by simp; omega, by simp; omega⟩, ?_, ?_⟩
      · unfold Cursor.asIndex
        have : 1 * 1 ≤ c.line * s.columns := Nat.mul_le_mul (by omega) g2
        omega
      · unfold Cursor.asIndex
        obtain ⟨l, hl'⟩ : ∃ l, c.line = l + 1 := ⟨c.line - 1, by omega⟩
        rw [hl', hc]
        simp only [Nat.add_sub_cancel, Nat.add_mul, Nat.one_mul]
        omega
  · right
    rw [if_neg hc]
    refine ⟨_, rfl, ⟨h1, by simp; omega⟩, ?_, ?_⟩
    · unfold Cursor.asIndex; omega
    · unfold Cursor.asIndex; simp only; omega

theorem tearPrev_eq {env : UEnv} {b : Buf} (h : b.Inv) (hc : InBounds b.cursor b.size) :
    b.tearPrev env = some { b with buffer := tear env b.ix b.buffer } := by
  unfold Buf.tearPrev tear
  rcases previous_ix h.size hc with ⟨h0, hp⟩ | ⟨d, hp, hd, h0, hix⟩
  · rw [hp, if_pos h0]; rfl
  · rw [hp, if_neg (by unfold Buf.ix; omega)]
    simp only [Option.bind_eq_bind, Option.bind_some]
    rw [modCell_eq (by rw [h.len]; exact asIndex_lt hd), hix]

theorem fillLoop_eq (ch : Char) (n : Nat) (pos : Cursor) (b : Buf)
    (h : pos.asIndex b.size + n ≤ b.buffer.length) :
    Buf.fillLoop ch n pos b =
      some { b with buffer := setRange (b.cellOf ch) (pos.asIndex b.size) n b.buffer } := by
  induction n generalizing pos b with
  | zero => rfl
  | succ n ih =>
    rw [Buf.fillLoop, setCell_eq (by omega)]
    simp only [Option.bind_eq_bind, Option.bind_some]
    rw [ih]
    · rfl
    · simp only [List.length_set]
      unfold Cursor.asIndex at h ⊢
      simp only; omega

theorem padLoop_eq (n : Nat) (pos : Cursor) (b : Buf)
    (h : pos.asIndex b.size + 1 + n ≤ b.buffer.length) :
    Buf.padLoop n pos b =
      some { b with buffer := setRange (b.cellOf ' ') (pos.asIndex b.size + 1) n b.buffer } := by
  induction n generalizing pos b with
  | zero => rfl
  | succ n ih =>
    have e : (Cursor.mk pos.line (pos.column + 1)).asIndex b.size = pos.asIndex b.size + 1 := rfl
    rw [Buf.padLoop, setCell_eq (by rw [e]; omega)]
    simp only [Option.bind_eq_bind, Option.bind_some]
    rw [ih]
    · rfl
    · simp only [List.length_set]
      rw [e]; omega

/-- Where the cursor goes after `w` columns of text on its line. -/
def advance (s : Size) (c : Cursor) (w : Nat) : Cursor :=
  if c.column + w ≥ s.columns then ⟨c.line + 1, 0⟩ else ⟨c.line, c.column + w⟩

/-- The grid after placing `ch` of width `w` at index `p`. -/
def placed (b : Buf) (ch : Char) (w p : Nat) (l : List Cell) : List Cell :=
  setRange (b.cellOf ' ') (p + 1) (w - 1) (l.set p (b.cellOf ch))

theorem placed_length (b : Buf) (ch : Char) (w p : Nat) (l : List Cell) :
    (placed b ch w p l).length = l.length := by
  unfold placed; rw [setRange_length, List.length_set]

theorem placed_get (b : Buf) (ch : Char) (w p : Nat) (l : List Cell) (hp : p < l.length) (i : Nat) :
    (placed b ch w p l)[i]? =
      if i = p then some (b.cellOf ch)
      else if p < i ∧ i < p + w ∧ i < l.length then some (b.cellOf ' ') else l[i]? := by
  unfold placed
  rw [setRange_get, List.length_set, List.getElem?_set]
  by_cases h1 : i = p
  · subst h1
    rw [if_neg (by omega), if_pos rfl, if_pos hp, if_pos rfl]
  · rw [if_neg h1]
    by_cases h2 : p < i ∧ i < p + w ∧ i < l.length
    · rw [if_pos h2, if_pos (by omega)]
    · rw [if_neg h2, if_neg (by omega), if_neg (by omega)]

theorem placeChar_eq {ch : Char} {w : Nat} {b : Buf} (h : b.Inv) (hc : InBounds b.cursor b.size)
    (hw : 1 ≤ w) (hfit : b.cursor.column + w ≤ b.size.columns) :
    Buf.placeChar ch w b =
      some ({ b with buffer := placed b ch w b.ix b.buffer,
                     cursor := advance b.size b.cursor w }, .ok) := by
  have hix := asIndex_lt hc
  have hix2 := asIndex_add_lt hc hfit
  have hg := h.size
  unfold GoodSize at hg
  unfold InBounds at hc
  unfold Buf.placeChar
  have : b.tryCursor = .ok := tryCursorAt_ok.mpr hc
  rw [this]
  dsimp only
  rw [setCell_eq (by rw [h.len]; exact hix)]
  simp only [Option.bind_eq_bind, Option.bind_some]
  rw [padLoop_eq _ _ _ (by
    simp only [List.length_set, h.len]
    omega)]
  simp only [Option.bind_some]
  unfold uadd advance
  rw [if_pos (by omega)]
  simp only [Option.bind_some]
  by_cases hge : b.cursor.column + w ≥ b.size.columns
  · rw [if_pos hge, if_pos hge, if_pos (by omega)]
    rfl
  · rw [if_neg hge, if_neg hge]
    rfl

theorem placeChar_oob {ch : Char} {w : Nat} {b : Buf} (hc : ¬ InBounds b.cursor b.size) :
    Buf.placeChar ch w b = some (b, .oob) := by
  unfold Buf.placeChar
  have : b.tryCursor = .oob := tryCursorAt_oob.mpr hc
  rw [this]

/-- A character that is drawn: not CR, LF or a combining mark, and of non-zero width. (Tab is also
excluded; it is handled separately.) -/
structure Drawn (env : UEnv) (ch : Char) : Prop where
  cr : ch ≠ '\r'
  lf : ch ≠ '\n'
  tab : ch ≠ '\t'
  comb : env.combining ch = false
  vis : 1 ≤ env.w ch

theorem isVisible_drawn {env : UEnv} {ch : Char} (h : Drawn env ch) : isVisible env ch = true := by
  unfold isVisible
  rw [if_neg (by simp [h.cr, h.lf, h.tab])]
  have := h.vis
  simp; omega

theorem writeCharNT_oob {env : UEnv} {b : Buf} {ch : Char} (h : Drawn env ch)
    (hc : ¬ InBounds b.cursor b.size) : b.writeCharNT env ch = some (b, .oob) := by
  unfold Buf.writeCharNT
  rw [if_neg h.cr, if_neg h.lf, if_neg (by simp [h.comb]), if_pos (isVisible_drawn h)]
  have : b.tryCursor = .oob := tryCursorAt_oob.mpr hc
  rw [this]

theorem inv_tear {env : UEnv} {b : Buf} (h : b.Inv) (p : Nat) :
    ({ b with buffer := Mortal.tear env p b.buffer } : Buf).Inv := by
  refine ⟨h.size, ?_, h.backLen, ?_⟩
  · simp only [tear_length]; exact h.len
  · intro c hc
    simp only at hc
    obtain ⟨i, hi⟩ := List.mem_iff_getElem?.mp hc
    rw [tear_get] at hi
    obtain ⟨a, ha, rfl⟩ := Option.map_eq_some_iff.mp hi
    split
    · simp [Cell.default]
    · exact h.text _ (List.mem_of_getElem? ha)

/-- The character fits on the rest of its line. -/
theorem writeCharNT_fit {env : UEnv} {b : Buf} {ch : Char} (h : b.Inv) (hd : Drawn env ch)
    (hc : InBounds b.cursor b.size) (hfit : b.cursor.column + env.w ch ≤ b.size.columns) :
    b.writeCharNT env ch =
      some ({ b with buffer := placed b ch (env.w ch) b.ix (tear env b.ix b.buffer),
                     cursor := advance b.size b.cursor (env.w ch) }, .ok) := by
  unfold Buf.writeCharNT
  rw [if_neg hd.cr, if_neg hd.lf, if_neg (by simp [hd.comb]), if_pos (isVisible_drawn hd)]
  have : b.tryCursor = .ok := tryCursorAt_ok.mpr hc
  rw [this]
  dsimp only
  rw [tearPrev_eq h hc]
  have hcol := hc.2
  simp only [Option.bind_eq_bind, Option.bind_some, usub]
  rw [if_pos (by omega)]
  simp only [Option.bind_some]
  rw [if_neg (by omega), placeChar_eq (inv_tear h _) hc hd.vis hfit]
  rfl

/-- The character does not fit on the rest of its line: the leftover cells are filled with the
character itself and it is placed on the next line, if there is one. -/
theorem writeCharNT_wrap {env : UEnv} {b : Buf} {ch : Char} (h : b.Inv) (hd : Drawn env ch)
    (hc : InBounds b.cursor b.size) (hfit : b.size.columns < b.cursor.column + env.w ch)
    (hw : env.w ch ≤ b.size.columns) :
    b.writeCharNT env ch =
      some (if b.cursor.line + 1 < b.size.lines then
        ({ b with buffer := placed b ch (env.w ch) ((b.cursor.line + 1) * b.size.columns)
                    (setRange (b.cellOf ch) b.ix (b.size.columns - b.cursor.column)
                      (tear env b.ix b.buffer)),
                  cursor := advance b.size ⟨b.cursor.line + 1, 0⟩ (env.w ch) }, .ok)
      else
        ({ b with buffer := setRange (b.cellOf ch) b.ix (b.size.columns - b.cursor.column)
                      (tear env b.ix b.buffer),
                  cursor := ⟨b.cursor.line + 1, 0⟩ }, .oob)) := by
  unfold Buf.writeCharNT
  rw [if_neg hd.cr, if_neg hd.lf, if_neg (by simp [hd.comb]), if_pos (isVisible_drawn hd)]
  have : b.tryCursor = .ok := tryCursorAt_ok.mpr hc
  rw [this]
  dsimp only
  rw [tearPrev_eq h hc]
  have hcol := hc.2
  have hg := h.size
  unfold GoodSize at hg
  have hline := hc.1
  simp only [Option.bind_eq_bind, Option.bind_some, usub]
  rw [if_pos (by omega)]
  simp only [Option.bind_some]
  rw [if_pos (by omega)]
  have : ({ b with buffer := tear env b.ix b.buffer } : Buf).tryCursor = .ok :=
    tryCursorAt_ok.mpr hc
  rw [this]
  dsimp only
  rw [fillLoop_eq _ _ _ _ (by
    simp only [tear_length, h.len]
    exact asIndex_add_lt hc (by omega))]
  simp only [Option.bind_some, uadd]
  rw [if_pos (by omega)]
  simp only [Option.bind_some]
  by_cases hl : b.cursor.line + 1 < b.size.lines
  · rw [if_pos hl, placeChar_eq _ _ hd.vis]
    · simp [Buf.ix, Cursor.asIndex, placed]
    · exact Nat.le_trans (Nat.le_of_eq (Nat.zero_add _)) hw
    · refine ⟨h.size, ?_, h.backLen, ?_⟩
      · simp only [setRange_length, tear_length]; exact h.len
      · intro c hc'
        simp only at hc'
        obtain ⟨i, hi⟩ := List.mem_iff_getElem?.mp hc'
        rw [setRange_get] at hi
        split at hi
        · obtain rfl := Option.some.inj hi; simp
        · exact (inv_tear (env := env) h b.ix).text c (List.mem_of_getElem? hi)
    · exact ⟨hl, by simp; omega⟩
  · rw [if_neg hl, placeChar_oob]
    intro hh; exact hl hh.1

/-- Append a combining mark to a cell. -/
def addMark (ch : Char) (c : Cell) : Cell := { c with text := c.text ++ [ch] }

/-- The position a combining mark goes to. -/
def markPos (s : Size) (c : Cursor) : Option Cursor :=
  if c.column = 0 then if c.line = 0 then none else some ⟨c.line - 1, s.columns - 1⟩
  else some ⟨c.line, c.column - 1⟩

theorem writeCharNT_comb {env : UEnv} {b : Buf} {ch : Char} (h : b.Inv)
    (hm : Mark env ch) :
    (markPos b.size b.cursor = none ∧ b.writeCharNT env ch = some (b, .ok)) ∨
    (∃ d, markPos b.size b.cursor = some d ∧ InBounds d b.size ∧ b.writeCharNT env ch = some
      ({ b with buffer := b.buffer.modify (d.asIndex b.size) (addMark ch) }, .ok)) ∨
    (∃ d, markPos b.size b.cursor = some d ∧ ¬ InBounds d b.size ∧
      b.writeCharNT env ch = some (b, .oob)) := by
  have hctl := hm.ctl
  simp only [List.mem_cons, List.not_mem_nil, or_false, not_or] at hctl
  have hp : b.cursor.previous b.size = some (markPos b.size b.cursor) := by
    rw [previous_eq h.size]; rfl
  unfold Buf.writeCharNT
  rw [if_neg hctl.1, if_neg hctl.2.1, if_pos hm.comb, hp]
  simp only [Option.bind_eq_bind, Option.bind_some]
  cases hmp : markPos b.size b.cursor with
  | none => exact Or.inl ⟨rfl, rfl⟩
  | some d =>
    right
    by_cases hd : InBounds d b.size
    · left
      refine ⟨d, rfl, hd, ?_⟩
      simp only [tryCursorAt_ok.mpr hd]
      rw [modCell_eq (by rw [h.len]; exact asIndex_lt hd)]
      rfl
    · right
      refine ⟨d, rfl, hd, ?_⟩
      simp only [tryCursorAt_oob.mpr hd]
      rfl

theorem writeCharNT_invisible {env : UEnv} {b : Buf} {ch : Char} (h1 : ch ∉ ['\r', '\n', '\t'])
    (h2 : env.combining ch = false) (h3 : env.w ch = 0) : b.writeCharNT env ch = some (b, .ok) := by
  simp only [List.mem_cons, List.not_mem_nil, or_false, not_or] at h1
  unfold Buf.writeCharNT isVisible
  rw [if_neg h1.1, if_neg h1.2.1, if_neg (by simp [h2]), if_neg]
  simp [h1, h3]

/-- Every character other than tab is of exactly one kind. -/
theorem char_cases (env : UEnv) (ch : Char) (ht : ch ≠ '\t') :
    ch = '\r' ∨ ch = '\n' ∨ Mark env ch ∨ Drawn env ch ∨
      (ch ∉ ['\r', '\n', '\t'] ∧ env.combining ch = false ∧ env.w ch = 0) := by
  by_cases h1 : ch = '\r'
  · exact Or.inl h1
  by_cases h2 : ch = '\n'
  · exact Or.inr (Or.inl h2)
  have hctl : ch ∉ ['\r', '\n', '\t'] := by simp [h1, h2, ht]
  by_cases h3 : env.combining ch = true
  · exact Or.inr (Or.inr (Or.inl ⟨h3, hctl⟩))
  rw [Bool.not_eq_true] at h3
  by_cases h4 : env.w ch = 0
  · exact Or.inr (Or.inr (Or.inr (Or.inr ⟨hctl, h3, h4⟩)))
  · exact Or.inr (Or.inr (Or.inr (Or.inl ⟨h1, h2, ht, h3, by omega⟩)))

theorem drawn_space {env : UEnv} (h : SpaceOk env) : Drawn env ' ' :=
  ⟨by decide, by decide, by decide, h.comb, by simp [UEnv.w, h.width]⟩

theorem w_space {env : UEnv} (h : SpaceOk env) : env.w ' ' = 1 := by simp [UEnv.w, h.width]

/-- What one write does to everything but the cells: sizes, attributes and the back buffer stay,
the grid stays well formed and the cursor moves down at most as allowed. -/
structure WStep (b b' : Buf) (nl : Nat) : Prop where
  inv : b'.Inv
  frame : SameFrame b b'
  line : b'.cursor.line ≤ max b.cursor.line b.size.lines + nl

theorem WStep.refl {b : Buf} (h : b.Inv) (n : Nat) : WStep b b n :=
  ⟨h, ⟨rfl, rfl, rfl, rfl, rfl⟩, by omega⟩

theorem WStep.trans {a b c : Buf} {n m : Nat} (h1 : WStep a b n) (h2 : WStep b c m) :
    WStep a c (n + m) := by
  obtain ⟨i1, ⟨s1, s2, s3, s4, s5⟩, l1⟩ := h1
  obtain ⟨i2, ⟨t1, t2, t3, t4, t5⟩, l2⟩ := h2
  refine ⟨i2, ⟨t1.trans s1, t2.trans s2, t3.trans s3, t4.trans s4, t5.trans s5⟩, ?_⟩
  rw [s1] at l2
  omega

theorem text_setRange {x : Cell} {s n : Nat} {l : List Cell} (hx : x.text ≠ [])
    (h : ∀ c ∈ l, c.text ≠ []) : ∀ c ∈ setRange x s n l, c.text ≠ [] := by
  intro c hc
  obtain ⟨i, hi⟩ := List.mem_iff_getElem?.mp hc
  rw [setRange_get] at hi
  split at hi
  · obtain rfl := Option.some.inj hi; exact hx
  · exact h c (List.mem_of_getElem? hi)

theorem text_placed {b : Buf} {ch : Char} {w p : Nat} {l : List Cell}
    (h : ∀ c ∈ l, c.text ≠ []) : ∀ c ∈ placed b ch w p l, c.text ≠ [] := by
  refine text_setRange (by simp) ?_
  intro c hc
  rcases List.mem_or_eq_of_mem_set hc with hc | rfl
  · exact h c hc
  · simp

theorem writeCharNT_total' {env : UEnv} {b : Buf} {ch : Char} (h : b.Inv) (ht : ch ≠ '\t')
    (hw : Drawn env ch → InBounds b.cursor b.size → env.w ch ≤ b.size.columns)
    (hl : ch = '\n' → b.cursor.line < usizeMax) :
    ∃ b' r, b.writeCharNT env ch = some (b', r) ∧
      WStep b b' (if ch = '\n' then 1 else 0) := by
  rcases char_cases env ch ht with rfl | rfl | hm | hd | ⟨h1, h2, h3⟩
  · refine ⟨_, _, rfl, ⟨⟨h.size, h.len, h.backLen, h.text⟩, ⟨rfl, rfl, rfl, rfl, rfl⟩, ?_⟩⟩
    simp; omega
  · have := hl rfl
    unfold Buf.writeCharNT uadd
    rw [if_neg (by decide), if_pos rfl, if_pos (by omega)]
    refine ⟨_, _, rfl, ⟨⟨h.size, h.len, h.backLen, h.text⟩, ⟨rfl, rfl, rfl, rfl, rfl⟩, ?_⟩⟩
    simp; omega
  · rcases writeCharNT_comb h hm with ⟨_, e⟩ | ⟨d, _, _, e⟩ | ⟨d, _, _, e⟩
    · exact ⟨_, _, e, WStep.refl h _⟩
    · refine ⟨_, _, e, ⟨h.size, ?_, h.backLen, ?_⟩, ⟨rfl, rfl, rfl, rfl, rfl⟩, by simp; omega⟩
      · simp only [List.length_modify]; exact h.len
      · intro c hc
        simp only at hc
        obtain ⟨i, hi⟩ := List.mem_iff_getElem?.mp hc
        rw [List.getElem?_modify] at hi
        rw [Option.map_eq_map, Option.map_eq_some_iff] at hi
        obtain ⟨a, ha, rfl⟩ := hi
        split
        · simp [addMark]
        · exact h.text _ (List.mem_of_getElem? ha)
    · exact ⟨_, _, e, WStep.refl h _⟩
  · by_cases hc : InBounds b.cursor b.size
    · have hcl := hc.1
      by_cases hfit : b.cursor.column + env.w ch ≤ b.size.columns
      · rw [writeCharNT_fit h hd hc hfit]
        refine ⟨_, _, rfl, ⟨⟨h.size, ?_, h.backLen, text_placed (inv_tear h _).text⟩,
          ⟨rfl, rfl, rfl, rfl, rfl⟩, ?_⟩⟩
        · simp only [placed_length, tear_length]; exact h.len
        · simp only [advance]; split <;> simp <;> omega
      · rw [writeCharNT_wrap h hd hc (by omega) (hw hd hc)]
        by_cases hnl : b.cursor.line + 1 < b.size.lines
        · rw [if_pos hnl]
          refine ⟨_, _, rfl, ?_⟩
          refine ⟨⟨h.size, ?_, h.backLen,
            text_placed (text_setRange (by simp) (inv_tear h _).text)⟩,
            ⟨rfl, rfl, rfl, rfl, rfl⟩, ?_⟩
          · simp only [placed_length, setRange_length, tear_length]; exact h.len
          · simp only [advance]; split <;> simp <;> omega
        · rw [if_neg hnl]
          refine ⟨_, _, rfl, ?_⟩
          refine ⟨⟨h.size, ?_, h.backLen, text_setRange (by simp) (inv_tear h _).text⟩,
            ⟨rfl, rfl, rfl, rfl, rfl⟩, ?_⟩
          · simp only [setRange_length, tear_length]; exact h.len
          · simp; omega
    · rw [writeCharNT_oob hd hc]
      exact ⟨_, _, rfl, WStep.refl h _⟩
  · rw [writeCharNT_invisible h1 h2 h3]
    exact ⟨_, _, rfl, WStep.refl h _⟩

theorem writeCharNT_total {env : UEnv} {b : Buf} {ch : Char} (h : b.Inv) (ht : ch ≠ '\t')
    (hw : env.w ch ≤ b.size.columns) (hl : ch = '\n' → b.cursor.line < usizeMax) :
    ∃ b' r, b.writeCharNT env ch = some (b', r) ∧
      WStep b b' (if ch = '\n' then 1 else 0) :=
  writeCharNT_total' h ht (fun _ _ => hw) hl

theorem tabLoop_total {env : UEnv} (henv : SpaceOk env) (n : Nat) (b : Buf) (h : b.Inv) :
    ∃ b' r, Buf.tabLoop env n b = some (b', r) ∧ WStep b b' 0 := by
  induction n generalizing b with
  | zero => exact ⟨_, _, rfl, WStep.refl h _⟩
  | succ n ih =>
    obtain ⟨b1, r1, e1, s1⟩ := writeCharNT_total (env := env) (ch := ' ') h (by decide)
      (by rw [w_space henv]; exact h.size.2.1) (fun hh => absurd hh (by decide))
    rw [if_neg (by decide)] at s1
    rw [Buf.tabLoop, e1]
    cases r1 with
    | ok =>
      obtain ⟨b2, r2, e2, s2⟩ := ih b1 s1.inv
      exact ⟨b2, r2, e2, s1.trans s2⟩
    | oob => exact ⟨b1, .oob, rfl, s1⟩

theorem writeChar_total {env : UEnv} (henv : SpaceOk env) {b : Buf} {ch : Char} (h : b.Inv)
    (hw : env.w ch ≤ b.size.columns) (hl : ch = '\n' → b.cursor.line < usizeMax) :
    ∃ b' r, b.writeChar env ch = some (b', r) ∧
      WStep b b' (if ch = '\n' then 1 else 0) := by
  unfold Buf.writeChar
  by_cases ht : ch = '\t'
  · rw [if_pos ht, if_neg (by rw [ht]; decide)]
    by_cases hc : InBounds b.cursor b.size
    · have : b.tryCursor = .ok := tryCursorAt_ok.mpr hc
      rw [this]
      dsimp only [usub]
      rw [if_pos (Nat.le_of_lt hc.2)]
      exact tabLoop_total henv _ b h
    · have : b.tryCursor = .oob := tryCursorAt_oob.mpr hc
      rw [this]
      exact ⟨_, _, rfl, WStep.refl h _⟩
  · rw [if_neg ht]
    exact writeCharNT_total h ht hw hl

theorem writeStr_total {env : UEnv} (henv : SpaceOk env) (s : List Char) {b : Buf} (h : b.Inv)
    (hw : ∀ ch ∈ s, env.w ch ≤ b.size.columns)
    (hl : max b.cursor.line b.size.lines + s.count '\n' ≤ usizeMax) :
    ∃ b' r, b.writeStr env s = some (b', r) ∧ WStep b b' (s.count '\n') := by
  induction s generalizing b with
  | nil => exact ⟨_, _, rfl, WStep.refl h _⟩
  | cons ch s ih =>
    rw [List.count_cons] at hl ⊢
    obtain ⟨b1, r1, e1, s1⟩ := writeChar_total henv (ch := ch) h (hw ch (List.mem_cons_self ..))
      (by rintro rfl; simp at hl; omega)
    rw [Buf.writeStr, e1]
    have hn : (if ch == '\n' then 1 else 0) = if ch = '\n' then 1 else 0 := by
      by_cases hc : ch = '\n' <;> simp [hc]
    rw [hn] at hl ⊢
    cases r1 with
    | ok =>
      have hs1 := s1.frame.1
      obtain ⟨b2, r2, e2, s2⟩ := ih s1.inv
        (by rw [hs1]; exact fun c hc => hw c (List.mem_cons_of_mem _ hc))
        (by rw [hs1]; have := s1.line; omega)
      refine ⟨b2, r2, e2, ?_⟩
      rw [Nat.add_comm]
      exact s1.trans s2
    | oob =>
      refine ⟨b1, .oob, rfl, ?_⟩
      refine ⟨s1.inv, s1.frame, ?_⟩
      have := s1.line; omega

/-! ## Resize -/

theorem swapRow_eq (n : Nat) (new old : List Cell) (h1 : n ≤ new.length) (h2 : n ≤ old.length) :
    Buf.swapRow n new old = some (old.take n ++ new.drop n) := by
  induction n generalizing new old with
  | zero => simp [Buf.swapRow]
  | succ n ih =>
    cases new with
    | nil => simp at h1
    | cons x new =>
      cases old with
      | nil => simp at h2
      | cons y old =>
        simp at h1 h2
        rw [Buf.swapRow, ih new old h1 h2]
        simp

/-- A grid cut into rows. -/
theorem chunks_grid {α : Type} (cols rows fuel : Nat) (hc : 0 < cols) (l : List α)
    (hl : l.length = rows * cols) (hf : rows ≤ fuel) :
    Buf.chunks cols fuel l = (List.range rows).map fun r => (l.drop (r * cols)).take cols := by
  induction rows generalizing l fuel with
  | zero =>
    have : l = [] := List.length_eq_zero_iff.mp (by omega)
    subst this
    cases fuel <;> rfl
  | succ rows ih =>
    cases fuel with
    | zero => omega
    | succ fuel =>
      cases l with
      | nil => rw [Nat.add_mul] at hl; simp at hl; omega
      | cons x xs =>
        rw [Buf.chunks, ih fuel _ (by rw [List.length_drop, hl, Nat.add_mul]; omega) (by omega),
          List.range_succ_eq_map]
        simp only [List.map_cons, List.map_map, Nat.zero_mul, List.drop_zero]
        congr 1
        apply List.map_congr_left
        intro r _
        simp only [Function.comp, List.drop_drop]
        rw [Nat.succ_eq_add_one, Nat.add_mul, Nat.one_mul, Nat.add_comm]

/-- Rows after swapping: rows present in both lists are merged, later rows of `new` stay. -/
theorem swapRows_eq (n : Nat) (news olds : List (List Cell))
    (h1 : ∀ r ∈ news, n ≤ r.length) (h2 : ∀ r ∈ olds, n ≤ r.length) :
    ∃ rs, Buf.swapRows n news olds = some rs ∧ rs.length = news.length ∧
      ∀ i : Nat, rs[i]? = news[i]?.map fun (r : List Cell) =>
        match olds[i]? with
        | some (o : List Cell) => o.take n ++ r.drop n
        | none => r := by
  induction news generalizing olds with
  | nil => exact ⟨[], by cases olds <;> rfl, rfl, by simp⟩
  | cons new news ih =>
    cases olds with
    | nil =>
      refine ⟨new :: news, rfl, rfl, fun i => ?_⟩
      simp
    | cons old olds =>
      obtain ⟨rs, e, hlen, hget⟩ := ih olds (fun r hr => h1 r (List.mem_cons_of_mem _ hr))
        (fun r hr => h2 r (List.mem_cons_of_mem _ hr))
      refine ⟨(old.take n ++ new.drop n) :: rs, ?_, by simp [hlen], ?_⟩
      · rw [Buf.swapRows, swapRow_eq n new old (h1 _ (List.mem_cons_self ..))
          (h2 _ (List.mem_cons_self ..)), e]
        rfl
      · intro i
        cases i with
        | zero => simp
        | succ i => simpa using hget i

/-- Element `(r, c)` of a flattened list of rows of equal length. -/
theorem flatten_get {α : Type} (cols : Nat) (rs : List (List α)) (h : ∀ r ∈ rs, r.length = cols)
    (r c : Nat) (hc : c < cols) : rs.flatten[r * cols + c]? = rs[r]?.bind (·[c]?) := by
  induction rs generalizing r with
  | nil => simp
  | cons x rs ih =>
    have hx := h x (List.mem_cons_self ..)
    rw [List.flatten_cons]
    cases r with
    | zero =>
      rw [Nat.zero_mul, Nat.zero_add, List.getElem?_append_left (by omega)]
      simp
    | succ r =>
      rw [List.getElem?_append_right (by rw [hx, Nat.add_mul]; omega), hx,
        show (r + 1) * cols + c - cols = r * cols + c by rw [Nat.add_mul]; omega,
        ih (fun r hr => h r (List.mem_cons_of_mem _ hr))]
      simp

theorem flatten_length' {α : Type} (cols : Nat) (rs : List (List α))
    (h : ∀ r ∈ rs, r.length = cols) : rs.flatten.length = rs.length * cols := by
  induction rs with
  | nil => simp
  | cons x rs ih =>
    rw [List.flatten_cons, List.length_append, h x (List.mem_cons_self ..),
      ih fun r hr => h r (List.mem_cons_of_mem _ hr), List.length_cons, Nat.add_mul]
    omega

theorem resizeBuffer_eq (buf : List Cell) (old new : Size) (ho : GoodSize old) (hn : GoodSize new)
    (hlen : buf.length = old.lines * old.columns) :
    ∃ buf', Buf.resizeBuffer buf old new = some buf' ∧
      buf'.length = new.lines * new.columns ∧
      ∀ r c, r < new.lines → c < new.columns →
        buf'[r * new.columns + c]? =
          if r < old.lines ∧ c < old.columns then buf[r * old.columns + c]?
          else some Cell.default := by
  unfold Buf.resizeBuffer
  by_cases he : old = new
  · subst he
    rw [if_pos rfl]
    exact ⟨buf, rfl, hlen, fun r c hr hc => by rw [if_pos ⟨hr, hc⟩]⟩
  · rw [if_neg he]
    have hoc := ho.2.1
    have hnc := hn.2.1
    have hol := ho.1
    have hpos : 0 < old.lines * old.columns := Nat.mul_pos hol hoc
    have hne : buf.isEmpty = false := by
      cases buf with
      | nil => simp at hlen; omega
      | cons => rfl
    dsimp only
    rw [hne, if_neg (by simp), if_neg (by omega)]
    have hnl : (List.replicate new.area Cell.default).length = new.lines * new.columns := by
      simp [Size.area]
    rw [chunks_grid new.columns new.lines _ hnc _ hnl
        (by rw [hnl]; exact Nat.le_mul_of_pos_right _ hnc),
      chunks_grid old.columns old.lines _ hoc _ hlen
        (by rw [hlen]; exact Nat.le_mul_of_pos_right _ hoc)]
    have rowlen : ∀ {l : List Cell} {rows cols r : Nat}, l.length = rows * cols → r < rows →
        ((l.drop (r * cols)).take cols).length = cols := by
      intro l rows cols r h1 h2
      rw [List.length_take, List.length_drop, h1]
      have : (r + 1) * cols ≤ rows * cols := Nat.mul_le_mul_right _ h2
      rw [Nat.add_mul] at this
      omega
    obtain ⟨rs, e, hlen', hget⟩ := swapRows_eq (min old.columns new.columns)
      ((List.range new.lines).map fun r =>
        ((List.replicate new.area Cell.default).drop (r * new.columns)).take new.columns)
      ((List.range old.lines).map fun r => (buf.drop (r * old.columns)).take old.columns)
      (by
        intro r hr
        obtain ⟨k, hk, rfl⟩ := List.mem_map.mp hr
        rw [rowlen hnl (List.mem_range.mp hk)]; omega)
      (by
        intro r hr
        obtain ⟨k, hk, rfl⟩ := List.mem_map.mp hr
        rw [rowlen hlen (List.mem_range.mp hk)]; omega)
    rw [e]
    rw [List.length_map, List.length_range] at hlen'
    have hrow : ∀ r (hr : r < new.lines), rs[r]? = some (
        if r < old.lines then
          ((buf.drop (r * old.columns)).take old.columns).take (min old.columns new.columns) ++
            (List.replicate new.columns Cell.default).drop (min old.columns new.columns)
        else List.replicate new.columns Cell.default) := by
      intro r hr
      have hrep : ((List.replicate new.area Cell.default).drop (r * new.columns)).take new.columns
          = List.replicate new.columns Cell.default := by
        rw [List.drop_replicate, List.take_replicate]
        congr 1
        have : (r + 1) * new.columns ≤ new.lines * new.columns := Nat.mul_le_mul_right _ hr
        rw [Nat.add_mul] at this
        unfold Size.area
        omega
      rw [hget r]
      simp only [List.getElem?_map, List.getElem?_range hr, Option.map_some, hrep]
      by_cases h : r < old.lines
      · rw [List.getElem?_range h, if_pos h]; rfl
      · rw [if_neg h, List.getElem?_eq_none (by simp; omega)]; rfl
    have hall : ∀ r ∈ rs, r.length = new.columns := by
      intro x hx
      obtain ⟨i, hi⟩ := List.mem_iff_getElem?.mp hx
      have hil : i < new.lines := by
        rw [← hlen']; exact (List.getElem?_eq_some_iff.mp hi).1
      rw [hrow i hil] at hi
      obtain rfl := Option.some.inj hi
      split
      · next h =>
        rw [List.length_append, List.length_take, rowlen hlen h, List.length_drop,
          List.length_replicate]
        omega
      · simp
    refine ⟨rs.flatten, rfl, ?_, ?_⟩
    · rw [flatten_length' new.columns rs hall, hlen']
    · intro r c hr hc
      rw [flatten_get new.columns rs hall r c hc, hrow r hr]
      simp only [Option.bind_some]
      by_cases h : r < old.lines
      · rw [if_pos h]
        by_cases h2 : c < old.columns
        · rw [if_pos ⟨h, h2⟩, List.getElem?_append_left (by
            rw [List.length_take, rowlen hlen h]; omega), List.getElem?_take_of_lt (by omega),
            List.getElem?_take_of_lt h2, List.getElem?_drop]
        · rw [if_neg (by omega), List.getElem?_append_right (by
            rw [List.length_take, rowlen hlen h]; omega), List.getElem?_drop,
            List.length_take, rowlen hlen h, List.getElem?_replicate, if_pos (by omega)]
      · rw [if_neg h, if_neg (by omega), List.getElem?_replicate, if_pos hc]

theorem resize_inv {b : Buf} (h : b.Inv) {s : Size} (hs : GoodSize s) :
    ∃ b', b.resize s = some b' ∧ b'.Inv ∧ b'.size = s ∧ b'.cursor = b.cursor ∧ b'.fg = b.fg ∧
      b'.bg = b.bg ∧ b'.style = b.style ∧ b'.back = List.replicate s.area Cell.invalid ∧
      ∀ r c, r < s.lines → c < s.columns → b'.buffer[r * s.columns + c]? =
        if r < b.size.lines ∧ c < b.size.columns then b.buffer[r * b.size.columns + c]?
        else some Cell.default := by
  obtain ⟨buf', e, hl, hget⟩ := resizeBuffer_eq b.buffer b.size s h.size hs h.len
  refine ⟨{ b with buffer := buf', back := List.replicate s.area Cell.invalid, size := s }, ?_,
    ⟨hs, hl, by simp [Size.area], ?_⟩, rfl, rfl, rfl, rfl, rfl, rfl, hget⟩
  · unfold Buf.resize; rw [e]; rfl
  · intro c hc
    simp only at hc
    obtain ⟨i, hi⟩ := List.mem_iff_getElem?.mp hc
    have hil : i < s.lines * s.columns := by
      rw [← hl]; exact (List.getElem?_eq_some_iff.mp hi).1
    have hcol := hs.2.1
    have h1 : i / s.columns < s.lines := Nat.div_lt_of_lt_mul (by rwa [Nat.mul_comm])
    have h2 : i % s.columns < s.columns := Nat.mod_lt _ hcol
    have h3 : i / s.columns * s.columns + i % s.columns = i := by
      rw [Nat.mul_comm]; exact Nat.div_add_mod i s.columns
    have := hget _ _ h1 h2
    rw [h3, hi] at this
    split at this
    · exact h.text c (List.mem_of_getElem? this.symm)
    · obtain rfl := Option.some.inj this; simp [Cell.default]

end Mortal
