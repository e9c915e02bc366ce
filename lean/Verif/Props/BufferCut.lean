import Verif.Lemmas.DrawPanic
import Verif.Props.BufferOps
import Verif.Props.Screen

/-! # C12 for any text: where a text that runs out of the screen is cut -/

namespace Mortal
open Spec

/-- Placing a character reports `OutOfBounds` only where there is no cell. -/
theorem placeChar_oob_only {ch : Char} {w : Nat} {b b' : Buf}
    (e : Buf.placeChar ch w b = some (b', .oob)) : ¬ InBounds b.cursor b.size ∧ b' = b := by
  by_cases hc : InBounds b.cursor b.size
  · unfold Buf.placeChar at e
    have : b.tryCursor = .ok := tryCursorAt_ok.mpr hc
    rw [this] at e
    dsimp only at e
    simp only [Option.bind_eq_bind, Option.bind_eq_some_iff] at e
    obtain ⟨b1, -, b2, -, col, -, e⟩ := e
    split at e
    · simp only [Option.bind_eq_some_iff] at e
      obtain ⟨l, -, e⟩ := e
      cases e
    · cases e
  · rw [placeChar_oob hc] at e
    simp only [Option.some.injEq, Prod.mk.injEq, and_true] at e
    exact ⟨hc, e.symm⟩

/-- What one character does when it reports `OutOfBounds`. -/
theorem writeChar_oob_exact {env : UEnv} (hu : TableOk env) {b b' : Buf} (h : GridOk b) {ch : Char}
    (e : b.writeChar env ch = some (b', .oob)) :
    ch ≠ '\r' ∧ ch ≠ '\n' ∧
    ((¬ InBounds b.cursor b.size ∧ b' = b) ∨
     (Wide env ch ∧ b.cursor = ⟨b.size.lines - 1, b.size.columns - 1⟩ ∧
      b' = { b with buffer := (tear env b.ix b.buffer).set b.ix (b.cellOf ch)
                    cursor := ⟨b.size.lines, 0⟩ })) := by
  by_cases ht : ch = '\t'
  · subst ht
    refine ⟨by decide, by decide, .inl ?_⟩
    by_cases hc : InBounds b.cursor b.size
    · obtain ⟨b1, e1, -⟩ := C13_tab env hu.space b h hc
      rw [e1] at e
      cases e
    · rw [C13_tab_outside env b hc] at e
      simp only [Option.some.injEq, Prod.mk.injEq, and_true] at e
      exact ⟨hc, e.symm⟩
  · rw [writeChar_eq_NT ht] at e
    rcases char_cases env ch ht with rfl | rfl | hm | hd | ⟨h1, h2, h3⟩
    · cases e
    · unfold Buf.writeCharNT uadd at e
      rw [if_neg (by decide), if_pos rfl] at e
      split at e <;> cases e
    · have hctl := hm.ctl
      simp only [List.mem_cons, List.not_mem_nil, or_false, not_or] at hctl
      refine ⟨hctl.1, hctl.2.1, .inl ?_⟩
      rcases writeCharNT_comb h hm with ⟨-, e1⟩ | ⟨d, -, -, e1⟩ | ⟨d, hp, hd, e1⟩
      · rw [e1] at e; cases e
      · rw [e1] at e; cases e
      · rw [e1] at e
        simp only [Option.some.injEq, Prod.mk.injEq, and_true] at e
        refine ⟨fun hin => hd ?_, e.symm⟩
        have hg := h.size
        unfold GoodSize at hg
        unfold markPos at hp
        obtain ⟨q1, q2⟩ := hin
        split at hp
        · split at hp
          · cases hp
          · cases hp; exact ⟨by simp only; omega, by simp only; omega⟩
        · cases hp; exact ⟨by simp only; omega, by simp only; omega⟩
    · refine ⟨hd.cr, hd.lf, ?_⟩
      by_cases hc : InBounds b.cursor b.size
      · right
        by_cases hfit : b.cursor.column + env.w ch ≤ b.size.columns
        · rw [writeCharNT_fit h hd hc hfit] at e
          cases e
        · have h2 := hu.le2 ch
          have hv := hd.vis
          obtain ⟨q1, q2⟩ := hc
          have hw : env.w ch = 2 := by omega
          have hg := h.size
          unfold GoodSize at hg
          unfold Buf.writeCharNT at e
          have ht1 : b.tryCursor = .ok := tryCursorAt_ok.mpr ⟨q1, q2⟩
          rw [if_neg hd.cr, if_neg hd.lf, if_neg (by simp [hd.comb]), if_pos (isVisible_drawn hd),
            ht1] at e
          dsimp only at e
          rw [tearPrev_eq h ⟨q1, q2⟩] at e
          simp only [Option.bind_eq_bind, Option.bind_some, usub] at e
          rw [if_pos (by omega)] at e
          simp only [Option.bind_some] at e
          rw [if_pos (by omega)] at e
          have ht2 : ({ b with buffer := tear env b.ix b.buffer } : Buf).tryCursor = .ok :=
            tryCursorAt_ok.mpr ⟨q1, q2⟩
          rw [ht2] at e
          dsimp only at e
          rw [fillLoop_eq _ _ _ _ (by
            simp only [tear_length, h.len]
            exact asIndex_add_lt ⟨q1, q2⟩ (by omega))] at e
          simp only [Option.bind_some, uadd] at e
          rw [if_pos (by omega)] at e
          simp only [Option.bind_some] at e
          obtain ⟨hn, rfl⟩ := placeChar_oob_only e
          have hl : ¬ b.cursor.line + 1 < b.size.lines := fun hl => hn ⟨hl, hg.2.1⟩
          have hone : b.size.columns - b.cursor.column = 1 := by omega
          refine ⟨⟨?_, hd.comb, by simp [hd.cr, hd.lf, hd.tab]⟩, ?_, ?_⟩
          · unfold UEnv.w at hw
            cases hx : env.width ch with
            | none => rw [hx] at hw; cases hw
            | some n => rw [hx] at hw; simpa using hw
          · cases hcur : b.cursor with
            | mk l c =>
              rw [hcur] at hl hone q1 q2
              simp only at hl hone q1 q2
              rw [Cursor.mk.injEq]
              omega
          · rw [hone]
            simp only [setRange]
            rw [show b.cursor.line + 1 = b.size.lines by omega]
      · left
        rw [writeCharNT_oob hd hc] at e
        simp only [Option.some.injEq, Prod.mk.injEq, and_true] at e
        exact ⟨hc, e.symm⟩
    · rw [writeCharNT_invisible h1 h2 h3] at e
      cases e

/-- C12 for any text whatsoever, with tabs, line ends, combining marks and two-column characters:
a text that runs out of the screen has a first character with no place on it. What comes before is
written as if it were the whole text; what comes after has no effect. That character itself has no
effect either if the cursor is outside the screen. Otherwise it is a two-column character with
only the last cell of the screen left, and this is what it does: the last cell takes it all the
same, in the current attributes, the cell before is blanked if it held a two-column character, and
nothing else changes but the cursor, which moves below the last line. Partial: that last case is
what the property rules out and the code does. -/
theorem C12_any_text_partial (env : UEnv) (hu : TableOk env) (b : Buf) (h : GridOk b)
    (text : List Char) (b' : Buf) (e : b.writeStr env text = some (b', .oob)) :
    ∃ pre ch post b1, text = pre ++ ch :: post ∧ b.writeStr env pre = some (b1, .ok) ∧
      ch ≠ '\r' ∧ ch ≠ '\n' ∧
      ((¬ InBounds b1.cursor b1.size ∧ b' = b1) ∨
       (Wide env ch ∧ b1.cursor = ⟨b1.size.lines - 1, b1.size.columns - 1⟩ ∧
        SameFrame b1 b' ∧ b'.cursor = ⟨b1.size.lines, 0⟩ ∧
        cellAt b' b1.cursor = some ⟨b1.fg, b1.bg, b1.style, [ch]⟩ ∧
        ∀ c, InBounds c b1.size → c ≠ b1.cursor →
          cellAt b' c = (cellAt b1 c).map fun old =>
            if numOf b1.size c + 1 = numOf b1.size b1.cursor ∧ HoldsWide env old then Cell.default
            else old)) := by
  induction text generalizing b with
  | nil => cases e
  | cons ch s ih =>
    cases e1 : b.writeChar env ch with
    | none => rw [Buf.writeStr, e1] at e; cases e
    | some x =>
      obtain ⟨b2, r⟩ := x
      cases r with
      | ok =>
        rw [writeStr_cons e1] at e
        have h2 : GridOk b2 := by
          by_cases hb : BreaksAt env b.size b.cursor ch
          · rw [(char_out hu h ch).1 hb] at e1; cases e1
          · obtain ⟨b3, r3, e3, h3⟩ := (char_out hu h ch).2 hb
            rw [e3] at e1
            cases e1
            exact h3
        obtain ⟨pre, c, post, b1, h1, hp, rest⟩ := ih b2 h2 e
        refine ⟨ch :: pre, c, post, b1, by rw [h1]; rfl, ?_, rest⟩
        rw [writeStr_cons e1]; exact hp
      | oob =>
        rw [writeStr_cons_oob e1, Option.some.injEq, Prod.mk.injEq] at e
        obtain ⟨rfl, -⟩ := e
        obtain ⟨n1, n2, q⟩ := writeChar_oob_exact hu h e1
        refine ⟨[], ch, s, b, rfl, rfl, n1, n2, ?_⟩
        rcases q with q | ⟨hw, hcur, rfl⟩
        · exact .inl q
        · right
          have hg := h.size
          unfold GoodSize at hg
          have hin : InBounds b.cursor b.size := by
            rw [hcur]; exact ⟨by simp only; omega, by simp only; omega⟩
          have hix : b.ix < (tear env b.ix b.buffer).length := by
            rw [tear_length, h.len]; exact numOf_lt hin
          refine ⟨hw, hcur, ⟨rfl, rfl, rfl, rfl, rfl⟩, rfl, ?_, ?_⟩
          · unfold cellAt
            show ((tear env b.ix b.buffer).set b.ix (b.cellOf ch))[b.ix]? = _
            rw [List.getElem?_set_self hix]
          · intro c hc hne
            unfold cellAt
            show ((tear env b.ix b.buffer).set b.ix (b.cellOf ch))[c.asIndex b.size]? =
              Option.map _ b.buffer[c.asIndex b.size]?
            rw [List.getElem?_set_ne (fun hh => hne (asIndex_inj hc hin hh.symm)), tear_get]
            congr 1
            funext old
            simp only [isWide_iff]
            rfl

/-- C12: a text without two-column characters that runs out of the screen is cut off exactly where
it does: the screen is left as the part before would leave it, to the last field. -/
theorem C12_cut_exactly (env : UEnv) (hu : TableOk env) (b : Buf) (h : GridOk b) (text : List Char)
    (ht : ∀ ch ∈ text, env.width ch ≠ some 2) (b' : Buf)
    (e : b.writeStr env text = some (b', .oob)) :
    ∃ pre ch post, text = pre ++ ch :: post ∧ b.writeStr env pre = some (b', .ok) ∧
      ¬ InBounds b'.cursor b'.size := by
  obtain ⟨pre, ch, post, b1, h1, hp, -, -, hq⟩ := C12_any_text_partial env hu b h text b' e
  rcases hq with ⟨q, rfl⟩ | ⟨hw, -⟩
  · exact ⟨pre, ch, post, h1, hp, q⟩
  · exact absurd hw.width (ht ch (by rw [h1]; simp))

/-- Both cases: a tab and a combining mark fit, `c` does not; and `世` with the last cell left,
next to a `世` that is torn by it. -/
example : TableOk demoEnv ∧ GridOk (Buf.new ⟨1, 3⟩) ∧
    (∀ ch ∈ ['\t', '́', 'c', 'd'], demoEnv.width ch ≠ some 2) ∧
    ((Buf.new ⟨1, 3⟩).writeStr demoEnv ['\t', '́', 'c', 'd']).map
      (fun r => (r.2, r.1.buffer.map (·.text))) =
        some (.oob, [[' '], [' '], [' ', '́']]) ∧
    (∃ b, (Buf.new ⟨1, 3⟩).writeStr demoEnv ['a', '世'] = some (b, .ok) ∧
      b.buffer.map (·.text) = [['a'], ['世'], [' ']] ∧ GridOk { b with cursor := ⟨0, 2⟩ } ∧
      (({ b with cursor := ⟨0, 2⟩ } : Buf).writeStr demoEnv ['世', 'x']).map
        (fun r => (r.2, r.1.cursor, r.1.buffer.map (·.text))) =
          some (.oob, ⟨1, 0⟩, [['a'], [' '], ['世']])) := by
  refine ⟨demo_table, new_inv (by decide), by decide, by decide, _, rfl, by decide,
    ⟨by decide, by decide, by decide, by decide⟩, by decide⟩

end Mortal
