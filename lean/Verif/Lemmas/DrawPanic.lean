import Verif.Spec.DrawPanic
import Verif.Lemmas.BufferText

/-!
# Lemmas: the calls that make a drawing panic
-/

namespace Mortal
open Spec

/-- A two-column character on a screen of one column. -/
theorem wide_one_column {u : UEnv} {b : Buf} {ch : Char} (h : b.Inv) (hd : Drawn u ch)
    (hw : u.w ch = 2) (hs : b.size.columns = 1) (hc : InBounds b.cursor b.size) :
    (b.cursor.line + 2 = b.size.lines → b.writeCharNT u ch = none) ∧
    (b.cursor.line + 2 ≠ b.size.lines → ∃ b' r, b.writeCharNT u ch = some (b', r) ∧ b'.Inv) := by
  obtain ⟨hl, hcol⟩ := hc
  have hg := h.size
  unfold GoodSize at hg
  have hlen := h.len
  rw [hs, Nat.mul_one] at hlen
  have hstart : b.writeCharNT u ch = Buf.placeChar ch 2
      { b with buffer := setRange (b.cellOf ch) b.ix 1 (tear u b.ix b.buffer),
               cursor := ⟨b.cursor.line + 1, 0⟩ } := by
    unfold Buf.writeCharNT
    rw [if_neg hd.cr, if_neg hd.lf, if_neg (by simp [hd.comb]), if_pos (isVisible_drawn hd)]
    have : b.tryCursor = .ok := tryCursorAt_ok.mpr ⟨hl, hcol⟩
    rw [this]
    dsimp only
    rw [tearPrev_eq h ⟨hl, hcol⟩]
    simp only [Option.bind_eq_bind, Option.bind_some, usub]
    rw [if_pos (by omega)]
    simp only [Option.bind_some]
    rw [if_pos (by omega)]
    have : ({ b with buffer := tear u b.ix b.buffer } : Buf).tryCursor = .ok :=
      tryCursorAt_ok.mpr ⟨hl, hcol⟩
    rw [this]
    dsimp only
    rw [show b.size.columns - b.cursor.column = 1 by omega]
    rw [fillLoop_eq _ _ _ _ (by
      simp only [tear_length, Cursor.asIndex, hs]
      omega)]
    simp only [Option.bind_some, uadd]
    rw [if_pos (by omega)]
    simp only [Option.bind_some, hw]
  have hinv : ({ b with buffer := setRange (b.cellOf ch) b.ix 1 (tear u b.ix b.buffer),
                        cursor := ⟨b.cursor.line + 1, 0⟩ } : Buf).Inv := by
    refine ⟨h.size, ?_, h.backLen, text_setRange (by simp) (inv_tear h _).text⟩
    simp only [setRange_length, tear_length]; exact h.len
  rw [hstart]
  by_cases hnl : b.cursor.line + 1 < b.size.lines
  · unfold Buf.placeChar
    have : ({ b with buffer := setRange (b.cellOf ch) b.ix 1 (tear u b.ix b.buffer),
                     cursor := ⟨b.cursor.line + 1, 0⟩ } : Buf).tryCursor = .ok :=
      tryCursorAt_ok.mpr ⟨hnl, by show 0 < b.size.columns; omega⟩
    rw [this]
    dsimp only
    rw [setCell_eq (by simp only [setRange_length, tear_length, Cursor.asIndex, hs]; omega)]
    simp only [Option.bind_eq_bind, Option.bind_some]
    constructor
    · intro he
      have : ∀ x : Buf, x.size = b.size → x.buffer.length = b.buffer.length →
          Buf.padLoop (2 - 1) ⟨b.cursor.line + 1, 0⟩ x = none := by
        intro x h1 h2
        show (x.setCell ⟨b.cursor.line + 1, 0 + 1⟩ ' ').bind _ = none
        have : x.setCell ⟨b.cursor.line + 1, 0 + 1⟩ ' ' = none := by
          unfold Buf.setCell Buf.modCell
          rw [List.getElem?_eq_none (by simp only [Cursor.asIndex, h1, hs, h2]; omega)]
        rw [this]; rfl
      refine Option.bind_eq_none_iff.mpr fun y hy => ?_
      rw [this _ (by rfl) (by simp only [List.length_set, setRange_length, tear_length])] at hy
      cases hy
    · intro he
      rw [padLoop_eq _ _ _ (by
        simp only [List.length_set, setRange_length, tear_length, Cursor.asIndex, hs]; omega)]
      simp only [Option.bind_some, uadd]
      rw [if_pos (by unfold usizeMax; omega)]
      simp only [Option.bind_some]
      rw [if_pos (by simp only [hs]; omega), if_pos (by omega)]
      refine ⟨_, _, rfl, h.size, ?_, h.backLen, ?_⟩
      · simp only [List.length_set, setRange_length, tear_length]; exact h.len
      · refine text_setRange (by simp) ?_
        intro c hc
        rcases List.mem_or_eq_of_mem_set hc with hc | rfl
        · exact hinv.text c hc
        · simp
  · rw [placeChar_oob (fun hh => hnl hh.1)]
    exact ⟨fun he => absurd he (by omega), fun _ => ⟨_, _, rfl, hinv⟩⟩

/-- Exactly the characters of `BreaksAt` panic. -/
theorem char_out {u : UEnv} (hu : TableOk u) {b : Buf} (h : b.Inv) (ch : Char) :
    (BreaksAt u b.size b.cursor ch → b.writeChar u ch = none) ∧
    (¬ BreaksAt u b.size b.cursor ch → ∃ b' r, b.writeChar u ch = some (b', r) ∧ b'.Inv) := by
  have hg := h.size
  unfold GoodSize at hg
  constructor
  · rintro (⟨rfl, hl⟩ | ⟨hw, hm, hx, hs, hc, hl⟩)
    · unfold Buf.writeChar Buf.writeCharNT uadd
      rw [if_neg (by decide), if_neg (by decide), if_pos rfl, if_neg (by omega)]
      rfl
    · simp only [List.mem_cons, List.not_mem_nil, or_false, not_or] at hx
      unfold Buf.writeChar
      rw [if_neg hx.2.2]
      exact (wide_one_column h ⟨hx.1, hx.2.1, hx.2.2, hm, by omega⟩ hw hs
        ⟨by omega, by omega⟩).1 hl
  · intro hn
    by_cases ht : ch = '\t'
    · subst ht
      obtain ⟨b', r, e, st⟩ := writeChar_total hu.space (ch := '\t') h
        (by rw [(hu.ctl '\t' (by decide)).1]; omega) (fun hh => absurd hh (by decide))
      exact ⟨b', r, e, st.inv⟩
    · unfold Buf.writeChar
      rw [if_neg ht]
      by_cases hb : Drawn u ch ∧ InBounds b.cursor b.size ∧ b.size.columns < u.w ch
      · obtain ⟨hd, hc, hlt⟩ := hb
        have := hu.le2 ch
        refine (wide_one_column h hd (by omega) (by omega) hc).2 fun he => hn (.inr ?_)
        refine ⟨by omega, hd.comb, by simp [hd.cr, hd.lf, hd.tab], by omega, ?_, he⟩
        have := hc.2
        omega
      · obtain ⟨b', r, e, st⟩ := writeCharNT_total' (env := u) h ht
          (fun hd hc => by
            rcases Nat.lt_or_ge b.size.columns (u.w ch) with h1 | h1
            · exact absurd ⟨hd, hc, h1⟩ hb
            · exact h1)
          (by
            rintro rfl
            rcases Nat.lt_or_ge b.cursor.line usizeMax with h1 | h1
            · exact h1
            · exact absurd (.inl ⟨rfl, h1⟩) hn)
        exact ⟨b', r, e, st.inv⟩

/-- Exactly the texts of `BreaksText` panic. -/
theorem text_out {u : UEnv} (hu : TableOk u) : ∀ (s : List Char) {b : Buf}, b.Inv →
    (BreaksText u b s → b.writeStr u s = none) ∧
    (¬ BreaksText u b s → ∃ b' r, b.writeStr u s = some (b', r) ∧ b'.Inv) := by
  intro s
  induction s with
  | nil =>
    intro b h
    refine ⟨?_, fun _ => ⟨b, .ok, rfl, h⟩⟩
    rintro ⟨pre, ch, post, b', he, -⟩
    simp at he
  | cons ch s ih =>
    intro b h
    obtain ⟨c1, c2⟩ := char_out hu h ch
    by_cases hb : BreaksAt u b.size b.cursor ch
    · have hnone : b.writeStr u (ch :: s) = none := by rw [Buf.writeStr, c1 hb]; rfl
      exact ⟨fun _ => hnone, fun hn => absurd ⟨[], ch, s, b, rfl, rfl, hb⟩ hn⟩
    · obtain ⟨b1, r1, e1, h1⟩ := c2 hb
      have hs : b.writeStr u (ch :: s) =
          if r1 = .ok then b1.writeStr u s else some (b1, .oob) := by
        rw [Buf.writeStr, e1]; cases r1 <;> rfl
      have hpre : ∀ pre : List Char, b.writeStr u (ch :: pre) =
          if r1 = .ok then b1.writeStr u pre else some (b1, .oob) := by
        intro pre; rw [Buf.writeStr, e1]; cases r1 <;> rfl
      constructor
      · rintro ⟨pre, c, post, b', he, hp, hbr⟩
        cases pre with
        | nil =>
          simp only [List.nil_append, List.cons.injEq] at he
          obtain ⟨rfl, rfl⟩ := he
          simp only [Buf.writeStr, Option.some.injEq, Prod.mk.injEq, and_true] at hp
          subst hp
          exact absurd hbr hb
        | cons p pre =>
          simp only [List.cons_append, List.cons.injEq] at he
          obtain ⟨rfl, rfl⟩ := he
          rw [hpre] at hp
          rw [hs]
          cases r1 with
          | oob => simp at hp
          | ok => exact (ih h1).1 ⟨pre, c, post, b', rfl, hp, hbr⟩
      · intro hn
        rw [hs]
        cases r1 with
        | oob => exact ⟨_, _, rfl, h1⟩
        | ok =>
          refine (ih h1).2 ?_
          rintro ⟨pre, c, post, b', rfl, hp, hbr⟩
          exact hn ⟨ch :: pre, c, post, b', rfl, by rw [hpre]; exact hp, hbr⟩

/-- Exactly the calls of `Breaks` panic. -/
theorem call_out {u : UEnv} (hu : TableOk u) {b : Buf} (h : b.Inv) (op : BufOp)
    (hres : ∀ s, op = .resize s → GoodSize s) :
    (Breaks u b op → op.run u b = none) ∧ (¬ Breaks u b op → ∃ b', op.run u b = some b' ∧ b'.Inv) := by
  have quiet : ∀ {x : Option Buf}, (∃ b', x = some b' ∧ b'.Inv) →
      (False → x = none) ∧ (¬ False → ∃ b', x = some b' ∧ b'.Inv) := fun hx => ⟨False.elim, fun _ => hx⟩
  cases op with
  | nextLine c =>
    simp only [Breaks, BufOp.run, Buf.nextLine, uadd]
    constructor
    · intro hb; rw [if_neg (by omega)]; rfl
    · intro hb; rw [if_pos (by omega)]
      exact ⟨_, rfl, h.size, h.len, h.backLen, h.text⟩
  | writeChar ch =>
    obtain ⟨t1, t2⟩ := text_out hu [ch] h
    have e : b.writeStr u [ch] = b.writeChar u ch := by
      rw [Buf.writeStr]
      cases b.writeChar u ch with
      | none => rfl
      | some x => obtain ⟨b', r⟩ := x; cases r <;> rfl
    rw [e] at t1 t2
    simp only [Breaks, BufOp.run]
    refine ⟨fun hb => by rw [t1 hb]; rfl, fun hb => ?_⟩
    obtain ⟨b', r, e1, h1⟩ := t2 hb
    exact ⟨b', by rw [e1]; rfl, h1⟩
  | writeStr s =>
    obtain ⟨t1, t2⟩ := text_out hu s h
    simp only [Breaks, BufOp.run]
    refine ⟨fun hb => by rw [t1 hb]; rfl, fun hb => ?_⟩
    obtain ⟨b', r, e1, h1⟩ := t2 hb
    exact ⟨b', by rw [e1]; rfl, h1⟩
  | writeAt p s =>
    obtain ⟨t1, t2⟩ := text_out hu s (b := { b with cursor := p }) ⟨h.size, h.len, h.backLen, h.text⟩
    simp only [Breaks, BufOp.run]
    unfold Buf.writeAt
    by_cases hp : InBounds p b.size
    · rw [tryCursorAt_ok.mpr hp]
      dsimp only
      refine ⟨fun hb => by rw [t1 hb.2]; rfl, fun hb => ?_⟩
      obtain ⟨b', r, e1, h1⟩ := t2 fun hx => hb ⟨hp, hx⟩
      exact ⟨b', by rw [e1]; rfl, h1⟩
    · rw [tryCursorAt_oob.mpr hp]
      exact ⟨fun hb => absurd hb.1 hp, fun _ => ⟨b, rfl, h⟩⟩
  | writeStyled fg bg st s =>
    obtain ⟨t1, t2⟩ := text_out hu s (b := { b with fg := fg, bg := bg, style := st })
      ⟨h.size, h.len, h.backLen, h.text⟩
    simp only [Breaks, BufOp.run]
    unfold Buf.writeStyled
    refine ⟨fun hb => by rw [t1 hb]; rfl, fun hb => ?_⟩
    obtain ⟨b', r, e1, h1⟩ := t2 hb
    rw [e1]
    cases r with
    | ok => exact ⟨_, rfl, h1.size, h1.len, h1.backLen, h1.text⟩
    | oob => exact ⟨_, rfl, h1⟩
  | writeStyledAt p fg bg st s =>
    obtain ⟨t1, t2⟩ := text_out hu s (b := { b with cursor := p, fg := fg, bg := bg, style := st })
      ⟨h.size, h.len, h.backLen, h.text⟩
    simp only [Breaks, BufOp.run]
    unfold Buf.writeStyledAt Buf.writeStyled
    by_cases hp : InBounds p b.size
    · rw [tryCursorAt_ok.mpr hp]
      dsimp only
      refine ⟨fun hb => by rw [t1 hb.2]; rfl, fun hb => ?_⟩
      obtain ⟨b', r, e1, h1⟩ := t2 fun hx => hb ⟨hp, hx⟩
      rw [e1]
      cases r with
      | ok => exact ⟨_, rfl, h1.size, h1.len, h1.backLen, h1.text⟩
      | oob => exact ⟨_, rfl, h1⟩
    · rw [tryCursorAt_oob.mpr hp]
      exact ⟨fun hb => absurd hb.1 hp, fun _ => ⟨b, rfl, h⟩⟩
  | resize s =>
    obtain ⟨b', e, hi, -⟩ := resize_inv h (hres s rfl)
    exact quiet ⟨b', e, hi⟩
  | clearScreen =>
    refine quiet ⟨_, rfl, h.size, ?_, h.backLen, ?_⟩
    · simp only [Buf.clearScreen, List.length_map]; exact h.len
    · intro c hc
      simp only [Buf.clearScreen, List.mem_map] at hc
      obtain ⟨_, _, rfl⟩ := hc
      simp [Cell.default]
  | _ => exact quiet ⟨_, rfl, h.size, h.len, h.backLen, h.text⟩

theorem runOps_panics {u : UEnv} (hu : TableOk u) : ∀ (ops : List BufOp) (b : Buf), b.Inv →
    (∀ s, .resize s ∈ ops → GoodSize s) →
    (runOps u ops b = none ↔ ∃ pre op post b', ops = pre ++ op :: post ∧ runOps u pre b = some b' ∧
      Breaks u b' op) ∧ (∀ b', runOps u ops b = some b' → b'.Inv) := by
  intro ops
  induction ops with
  | nil =>
    intro b h _
    refine ⟨⟨fun hh => by simp [runOps] at hh, ?_⟩, ?_⟩
    · rintro ⟨pre, op, post, b', he, -⟩
      simp at he
    · intro b' hb'
      simp only [runOps, Option.some.injEq] at hb'
      exact hb' ▸ h
  | cons op ops ih =>
    intro b h hres
    obtain ⟨c1, c2⟩ := call_out hu h op fun s hs => hres s (hs ▸ List.mem_cons_self ..)
    by_cases hb : Breaks u b op
    · have hnone : runOps u (op :: ops) b = none := by rw [runOps, c1 hb]; rfl
      refine ⟨⟨fun _ => ⟨[], op, ops, b, rfl, rfl, hb⟩, fun _ => hnone⟩, ?_⟩
      intro b' hb'; rw [hnone] at hb'; cases hb'
    · obtain ⟨b1, e1, h1⟩ := c2 hb
      obtain ⟨i1, i2⟩ := ih b1 h1 fun s hs => hres s (List.mem_cons_of_mem _ hs)
      have hrun : ∀ l, runOps u (op :: l) b = runOps u l b1 := by
        intro l; rw [runOps, e1]; rfl
      rw [hrun]
      refine ⟨i1.trans ⟨?_, ?_⟩, i2⟩
      · rintro ⟨pre, o, post, b', rfl, hp, hx⟩
        exact ⟨op :: pre, o, post, b', rfl, by rw [hrun]; exact hp, hx⟩
      · rintro ⟨pre, o, post, b', he, hp, hx⟩
        cases pre with
        | nil =>
          simp only [List.nil_append, List.cons.injEq] at he
          obtain ⟨rfl, rfl⟩ := he
          simp only [runOps, Option.some.injEq] at hp
          subst hp
          exact absurd hx hb
        | cons p pre =>
          simp only [List.cons_append, List.cons.injEq] at he
          obtain ⟨rfl, rfl⟩ := he
          rw [hrun] at hp
          exact ⟨pre, o, post, b', rfl, hp, hx⟩

end Mortal
