import Verif.Spec.TextRef
import Verif.Props.BufferOps

/-! # The buffer follows the reference for writing text -/

namespace Mortal
open Spec

theorem pic_ext {p q : Pic} (h1 : p.size = q.size) (h2 : ∀ c, p.cell c = q.cell c)
    (h3 : p.cursor = q.cursor) (h4 : p.fg = q.fg) (h5 : p.bg = q.bg) (h6 : p.style = q.style) : p = q := by
  cases p; cases q
  obtain rfl := h1; obtain rfl := h3; obtain rfl := h4; obtain rfl := h5; obtain rfl := h6
  congr
  exact funext h2

theorem posBefore_eq (s : Size) (c : Cursor) : posBefore s c = markPos s c := by
  obtain ⟨l, k⟩ := c
  unfold posBefore markPos
  cases k with
  | zero => cases l <;> simp
  | succ k => simp

theorem picOf_cell {b : Buf} {c : Cursor} (h : InBounds c b.size) :
    (picOf b).cell c = b.buffer[numOf b.size c]? := if_pos h

theorem picOf_out {b : Buf} {c : Cursor} (h : ¬ InBounds c b.size) : (picOf b).cell c = none := if_neg h

theorem wideAt_in {env : UEnv} {b : Buf} {c : Cursor} {x : Cell} (h : InBounds c b.size)
    (e : b.buffer[numOf b.size c]? = some x) : (picOf b).wideAt env c = x.isWide env := by
  unfold Pic.wideAt
  rw [picOf_cell h, e]
  obtain ⟨fg, bg, st, t⟩ := x
  cases t with
  | nil => simp [Cell.isWide]
  | cons ch t =>
    simp only [Cell.isWide, List.head?_cons, UEnv.w]
    cases env.width ch <;> simp

theorem wideAt_out {env : UEnv} {b : Buf} {c : Cursor} (h : ¬ InBounds c b.size) :
    (picOf b).wideAt env c = false := by
  unfold Pic.wideAt; rw [picOf_out h]

/-- The position before an in-bounds one has the preceding number. -/
theorem posBefore_num {s : Size} (hs : GoodSize s) {c d : Cursor} (hc : InBounds c s)
    (hd : InBounds d s) : posBefore s c = some d ↔ numOf s d + 1 = numOf s c := by
  have hp := previous_eq (c := c) hs
  rw [posBefore_eq]
  rcases previous_ix hs hc with ⟨h0, h1⟩ | ⟨e, h1, he, h0, h2⟩
  · have : markPos s c = none := Option.some.inj (hp.symm.trans h1)
    rw [this]
    constructor
    · intro h; cases h
    · intro h; have : numOf s c = 0 := h0; omega
  · have : markPos s c = some e := Option.some.inj (hp.symm.trans h1)
    rw [this]
    have h3 : numOf s e = numOf s c - 1 := h2
    have h0 : 0 < numOf s c := h0
    constructor
    · intro h; cases h; omega
    · intro h
      rw [Option.some.injEq]
      exact asIndex_inj he hd (by change numOf s e = numOf s d; omega)

/-- A new cell list described by numbers is the picture after `put`. -/
theorem put_eq {env : UEnv} {b b' : Buf} (h : b.Inv) {w : Nat} {ch : Char}
    (hc : InBounds b.cursor b.size) (hfit : b.cursor.column + w ≤ b.size.columns)
    (f : SameFrame b b')
    (hcur : b'.cursor = advance b.size b.cursor w)
    (g : ∀ i, b'.buffer[i]? = if i = b.ix then some (b.cellOf ch)
        else if b.ix < i ∧ i < b.ix + w then some (b.cellOf ' ')
        else b.buffer[i]?.map fun c =>
          if i + 1 = b.ix ∧ c.isWide env = true then Cell.default else c) :
    picOf b' = ((picOf b).put env b.cursor w ch).moveTo b.cursor (b.cursor.column + w) := by
  obtain ⟨f1, f2, f3, f4, f5⟩ := f
  apply pic_ext
  · exact f1
  · intro c
    change _ = ((picOf b).put env b.cursor w ch).cell c
    unfold Pic.put
    dsimp only
    by_cases hin : InBounds c b.size
    · have hin' : InBounds c b'.size := by rw [f1]; exact hin
      rw [picOf_cell hin', f1, g]
      have e1 : numOf b.size c = b.ix ↔ c = b.cursor :=
        ⟨fun e => asIndex_inj hin hc e, fun e => by rw [e]; rfl⟩
      have e2 : (b.ix < numOf b.size c ∧ numOf b.size c < b.ix + w) ↔
          (c.line = b.cursor.line ∧ b.cursor.column < c.column ∧ c.column < b.cursor.column + w) := by
        have d1 : (posOf b.size (numOf b.size c)) = c := posOf_numOf hin
        rw [ix_eq]
        have hin2 := hin.2
        constructor
        · rintro ⟨i1, i2⟩
          have hl : c.line = b.cursor.line := by
            have : numOf b.size c / b.size.columns = b.cursor.line := by
              unfold numOf at *
              rw [Nat.div_eq_iff (by omega)]
              constructor <;> omega
            rw [← d1]; exact this
          have hl' : c.line * b.size.columns = b.cursor.line * b.size.columns := by rw [hl]
          unfold numOf at i1 i2
          exact ⟨hl, by omega, by omega⟩
        · rintro ⟨i1, i2, i3⟩
          unfold numOf; rw [i1]; omega
      by_cases k1 : c = b.cursor
      · rw [if_pos (e1.mpr k1), if_pos k1]; rfl
      · rw [if_neg (fun hh => k1 (e1.mp hh)), if_neg k1]
        by_cases k2 : c.line = b.cursor.line ∧ b.cursor.column < c.column ∧
            c.column < b.cursor.column + w
        · rw [if_pos (e2.mpr k2), if_pos k2]; rfl
        · rw [if_neg (fun hh => k2 (e2.mp hh)), if_neg k2]
          have hlt : numOf b.size c < b.buffer.length := by rw [h.len]; exact numOf_lt hin
          have hx := List.getElem?_eq_getElem hlt
          have e3 : posBefore (picOf b).size b.cursor = some c ↔ numOf b.size c + 1 = b.ix :=
            posBefore_num h.size hc hin
          rw [hx, Option.map_some]
          by_cases k3 : numOf b.size c + 1 = b.ix ∧ (b.buffer[numOf b.size c]).isWide env = true
          · rw [if_pos k3, if_pos ⟨e3.mpr k3.1, by rw [wideAt_in hin hx]; exact k3.2⟩]; rfl
          · rw [if_neg k3, if_neg, picOf_cell hin, hx]
            rintro ⟨j1, j2⟩
            rw [wideAt_in hin hx] at j2
            exact k3 ⟨e3.mp j1, j2⟩
    · have hin' : ¬ InBounds c b'.size := by rw [f1]; exact hin
      rw [picOf_out hin', if_neg, if_neg, if_neg, picOf_out hin]
      · rintro ⟨-, hh⟩
        rw [wideAt_out hin] at hh
        cases hh
      · rintro ⟨i1, i2, i3⟩
        exact hin ⟨by rw [i1]; exact hc.1, by omega⟩
      · rintro rfl; exact hin hc
  · change b'.cursor = if b.cursor.column + w = b.size.columns then _ else _
    rw [hcur]
    unfold advance
    by_cases k : b.cursor.column + w = b.size.columns
    · rw [if_pos (by omega), if_pos k]
    · rw [if_neg (by omega), if_neg k]
  · exact f3
  · exact f4
  · exact f5

/-- The result of a write, as the reference gives it. -/
def refRes (x : Buf × WRes) : Pic × Bool := (picOf x.1, decide (x.2 = .ok))

theorem tab_eq {env : UEnv} (henv : SpaceOk env) {b : Buf} (h : b.Inv) (hc : InBounds b.cursor b.size)
    {n : Nat} (hn : 1 ≤ n) (hfit : b.cursor.column + n ≤ b.size.columns) :
    ∃ b', Buf.tabLoop env n b = some (b', .ok) ∧ b'.Inv ∧
      picOf b' = ((picOf b).put env b.cursor n ' ').moveTo b.cursor (b.cursor.column + n) := by
  have hend : b.ix + n ≤ b.size.lines * b.size.columns := asIndex_add_lt hc hfit
  obtain ⟨b', e, i, f, c, g⟩ := writeStr_plain (env := env) (List.replicate n ' ') h (p := b.ix)
    (by rw [ix_eq, posOf_numOf hc])
    (fun x hx => by rw [List.eq_of_mem_replicate hx]; exact plain_space henv)
    (by rw [List.length_replicate]; exact hend)
  rw [← tabLoop_eq] at e
  refine ⟨b', e, i, put_eq h hc hfit f ?_ ?_⟩
  · rw [c, List.length_replicate, advance_eq h.size hfit]; rfl
  · intro i
    rw [g]
    unfold plainCells
    rw [List.length_replicate]
    by_cases k1 : i = b.ix
    · subst k1
      rw [if_pos ⟨Nat.le_refl _, by omega⟩, if_pos rfl, Nat.sub_self]
      rw [List.getElem?_replicate, if_pos (by omega)]; rfl
    · rw [if_neg k1]
      by_cases k2 : b.ix < i ∧ i < b.ix + n
      · rw [if_pos k2, if_pos (by omega), List.getElem?_replicate, if_pos (by omega)]; rfl
      · rw [if_neg k2, if_neg (by omega)]
        by_cases k3 : i + 1 = b.ix
        · rw [if_pos ⟨by simp; omega, k3⟩]
          simp [k3]
        · rw [if_neg (by simp [k3])]
          simp [k3]

/-- One character. -/
theorem char_ref {env : UEnv} (henv : SpaceOk env) {b : Buf} (h : b.Inv) (ch : Char)
    (hf : (picOf b).Fits env ch) :
    (b.writeChar env ch).map refRes = (picOf b).char env ch := by
  have hm : usizeMax = 2 ^ 64 - 1 := rfl
  by_cases ht : ch = '\t'
  · subst ht
    unfold Buf.writeChar Pic.char
    rw [if_pos rfl, if_neg (by decide), if_neg (by decide), if_pos rfl]
    by_cases hc : InBounds b.cursor b.size
    · have hc' : InBounds (picOf b).cursor (picOf b).size := hc
      rw [if_pos hc']
      have : b.tryCursor = .ok := tryCursorAt_ok.mpr hc
      rw [this]
      have hcol := hc.2
      simp only [Option.bind_eq_bind, usub]
      rw [if_pos (by omega)]
      simp only [Option.bind_some]
      have hT : TAB_STOP = 8 := rfl
      have hn : min (b.size.columns - b.cursor.column) (TAB_STOP - b.cursor.column % TAB_STOP) =
          tabTarget b.size.columns b.cursor.column - b.cursor.column := by
        unfold tabTarget; rw [hT]; omega
      have hle : tabTarget b.size.columns b.cursor.column ≤ b.size.columns := Nat.min_le_left _ _
      have hgt : b.cursor.column < tabTarget b.size.columns b.cursor.column := by
        unfold tabTarget; omega
      rw [hn]
      obtain ⟨b', e1, -, e2⟩ := tab_eq henv h hc
        (n := tabTarget b.size.columns b.cursor.column - b.cursor.column) (by omega) (by omega)
      rw [e1, Option.map_some, refRes, e2]
      have : b.cursor.column + (tabTarget b.size.columns b.cursor.column - b.cursor.column) =
          tabTarget b.size.columns b.cursor.column := by omega
      rw [this]
      rfl
    · have hc' : ¬ InBounds (picOf b).cursor (picOf b).size := hc
      rw [if_neg hc']
      have : b.tryCursor = .oob := tryCursorAt_oob.mpr hc
      rw [this]
      rfl
  rcases char_cases env ch ht with rfl | rfl | hmk | hd | ⟨k1, k2, k3⟩
  · rfl
  · rw [writeChar_eq_NT (by decide)]
    unfold Buf.writeCharNT Pic.char
    rw [if_neg (by decide), if_pos rfl, if_neg (by decide), if_pos rfl]
    simp only [Option.bind_eq_bind, uadd]
    by_cases hl : b.cursor.line + 1 < 2 ^ 64
    · rw [if_pos (by omega)]
      exact (if_pos hl).symm
    · rw [if_neg (by omega)]
      exact (if_neg hl).symm
  · rw [writeChar_eq_NT ht]
    have hctl := hmk.ctl
    simp only [List.mem_cons, List.not_mem_nil, or_false, not_or] at hctl
    unfold Pic.char
    rw [if_neg hctl.1, if_neg hctl.2.1, if_neg ht, if_pos hmk.comb, hf.1 hmk, posBefore_eq]
    rcases writeCharNT_comb h hmk with ⟨e1, e2⟩ | ⟨d, e1, e2, e3⟩ | ⟨d, e1, e2, e3⟩
    · have e1 : markPos (picOf b).size (picOf b).cursor = none := e1
      rw [e1, e2]; rfl
    · have e1 : markPos (picOf b).size (picOf b).cursor = some d := e1
      have e2' : InBounds d (picOf b).size := e2
      rw [e1, e3]
      dsimp only
      rw [if_pos e2', Option.map_some, refRes]
      refine congrArg some (Prod.ext (pic_ext rfl ?_ rfl rfl rfl rfl) rfl)
      intro c
      dsimp only
      by_cases hin : InBounds c b.size
      · have hin' : InBounds c ({ b with buffer := b.buffer.modify (d.asIndex b.size) (addMark ch) } : Buf).size := hin
        rw [picOf_cell hin']
        dsimp only
        rw [List.getElem?_modify]
        by_cases k : c = d
        · subst k
          rw [if_pos rfl, picOf_cell hin]
          have : c.asIndex b.size = numOf b.size c := rfl
          rw [this]
          simp only [if_true]
          rfl
        · have hne : ¬ d.asIndex b.size = numOf b.size c := fun hh => k (asIndex_inj hin e2 hh.symm)
          rw [if_neg k, picOf_cell hin]
          simp only [hne, if_false]
          simp
      · have hin' : ¬ InBounds c ({ b with buffer := b.buffer.modify (d.asIndex b.size) (addMark ch) } : Buf).size := hin
        rw [picOf_out hin', if_neg (by rintro rfl; exact hin e2), picOf_out hin]
    · have e1 : markPos (picOf b).size (picOf b).cursor = some d := e1
      have e2' : ¬ InBounds d (picOf b).size := e2
      rw [e1, e3]
      dsimp only
      rw [if_neg e2']
      rfl
  · have hpr : Printable env ch := ⟨hd.cr, hd.lf, hd.tab, hd.comb, by have := hd.vis; omega⟩
    unfold Pic.char
    rw [if_neg hd.cr, if_neg hd.lf, if_neg ht, if_neg (by simp [hd.comb]), if_neg hpr.width]
    by_cases hc : InBounds b.cursor b.size
    · have hc' : InBounds (picOf b).cursor (picOf b).size := hc
      have hfit := hf.2 hpr hc'
      rw [if_pos hc', if_pos hfit]
      obtain ⟨b', e1, -, f, hcur, g⟩ := writeChar_fit_cells h hd hc hfit
      rw [e1, Option.map_some, refRes, put_eq h hc hfit f hcur g]
      rfl
    · have hc' : ¬ InBounds (picOf b).cursor (picOf b).size := hc
      rw [if_neg hc', writeChar_eq_NT ht, writeCharNT_oob hd hc]
      rfl
  · rw [writeChar_eq_NT ht, writeCharNT_invisible k1 k2 k3]
    simp only [List.mem_cons, List.not_mem_nil, or_false, not_or] at k1
    unfold Pic.char
    rw [if_neg k1.1, if_neg k1.2.1, if_neg k1.2.2, if_neg (by simp [k2]), if_pos k3]
    rfl

theorem char_inv {env : UEnv} (henv : SpaceOk env) {b b' : Buf} (h : b.Inv) {ch : Char} {r : WRes}
    (hf : (picOf b).Fits env ch) (e : b.writeChar env ch = some (b', r)) : b'.Inv := by
  by_cases ht : ch = '\t'
  · subst ht
    unfold Buf.writeChar at e
    rw [if_pos rfl] at e
    by_cases hc : InBounds b.cursor b.size
    · have : b.tryCursor = .ok := tryCursorAt_ok.mpr hc
      rw [this] at e
      have hcol := hc.2
      simp only [Option.bind_eq_bind, usub] at e
      rw [if_pos (by omega)] at e
      simp only [Option.bind_some] at e
      obtain ⟨b1, r1, e1, st⟩ := tabLoop_total henv
        (min (b.size.columns - b.cursor.column) (TAB_STOP - b.cursor.column % TAB_STOP)) b h
      rw [e] at e1
      cases e1
      exact st.inv
    · have : b.tryCursor = .oob := tryCursorAt_oob.mpr hc
      rw [this] at e
      cases e
      exact h
  · rw [writeChar_eq_NT ht] at e
    by_cases hl : ch = '\n' → b.cursor.line < usizeMax
    · obtain ⟨b1, r1, e1, st⟩ := writeCharNT_total' (env := env) h ht (fun hd hc => by
        have := hf.2 ⟨hd.cr, hd.lf, hd.tab, hd.comb, by have := hd.vis; omega⟩ hc
        have h2 : (picOf b).size = b.size := rfl
        rw [h2] at this
        omega) hl
      rw [e] at e1
      cases e1
      exact st.inv
    · have hch : ch = '\n' := Classical.byContradiction fun hc => hl fun hh => absurd hh hc
      subst hch
      have hge : ¬ b.cursor.line < usizeMax := fun hh => hl fun _ => hh
      unfold Buf.writeCharNT uadd at e
      rw [if_neg (by decide), if_pos rfl, if_neg (by omega)] at e
      cases e

/-- A text. -/
theorem text_ref {env : UEnv} (henv : SpaceOk env) (s : List Char) {b : Buf} (h : b.Inv)
    (hf : (picOf b).Tame env s) :
    (b.writeStr env s).map refRes = (picOf b).text env s ∧
      ∀ b' r, b.writeStr env s = some (b', r) → b'.Inv := by
  induction s generalizing b with
  | nil => exact ⟨rfl, fun b' r e => by cases e; exact h⟩
  | cons ch s ih =>
    have h1 := char_ref henv h ch hf.1
    have h2 := fun b' r => char_inv (b' := b') (r := r) henv h hf.1
    unfold Pic.text
    cases e : b.writeChar env ch with
    | none =>
      rw [e] at h1
      rw [← h1, Buf.writeStr, e]
      exact ⟨rfl, fun b' r e => by cases e⟩
    | some x =>
      obtain ⟨b1, r⟩ := x
      rw [e] at h1
      rw [← h1]
      have i1 := h2 b1 r e
      cases r with
      | oob =>
        rw [writeStr_cons_oob e]
        exact ⟨rfl, fun b' r e => by cases e; exact i1⟩
      | ok =>
        rw [writeStr_cons e]
        exact ih i1 (hf.2 _ h1.symm)

/-- A call. -/
theorem op_ref {env : UEnv} (henv : SpaceOk env) {b : Buf} (h : b.Inv) (op : BufOp)
    (hf : (picOf b).TameOp env op) :
    (op.run env b).map picOf = (picOf b).draw env op ∧ ∀ b', op.run env b = some b' → b'.Inv := by
  have mp : ∀ x : Option (Buf × WRes), (x.map (·.1)).map picOf = (x.map refRes).map (·.1) := by
    intro x; cases x <;> rfl
  have str : ∀ (b : Buf) s, b.Inv → (picOf b).Tame env s →
      ((b.writeStr env s).map (·.1)).map picOf = ((picOf b).text env s).map (·.1) ∧
      ∀ b', (b.writeStr env s).map (·.1) = some b' → b'.Inv := by
    intro b s h hf
    obtain ⟨e1, e2⟩ := text_ref henv s h hf
    refine ⟨by rw [mp, e1], ?_⟩
    intro b' e
    obtain ⟨x, e3, rfl⟩ := Option.map_eq_some_iff.mp e
    exact e2 _ _ e3
  have sty : ∀ (b : Buf) fg bg st s, b.Inv →
      ((picOf b).inked fg bg st).Tame env s →
      (∀ p' r, ((picOf b).inked fg bg st).text env s = some (p', r) → r = true) →
      ((b.writeStyled env fg bg st s).map (·.1)).map picOf =
        (((picOf b).inked fg bg st).text env s).map (fun x => x.1.inked none none 0#8) ∧
      ∀ b', (b.writeStyled env fg bg st s).map (·.1) = some b' → b'.Inv := by
    intro b fg bg st s h hf hr
    have hi : ({ b with fg := fg, bg := bg, style := st } : Buf).Inv := ⟨h.size, h.len, h.backLen, h.text⟩
    obtain ⟨e1, e2⟩ := text_ref (b := { b with fg := fg, bg := bg, style := st }) henv s hi hf
    have hp : picOf ({ b with fg := fg, bg := bg, style := st } : Buf) = (picOf b).inked fg bg st := rfl
    rw [hp] at e1
    unfold Buf.writeStyled
    cases e : ({ b with fg := fg, bg := bg, style := st } : Buf).writeStr env s with
    | none =>
      rw [e] at e1
      rw [← e1]
      exact ⟨rfl, fun b' e => by cases e⟩
    | some x =>
      obtain ⟨b1, r⟩ := x
      rw [e] at e1
      have i1 := e2 _ _ e
      rw [← e1]
      cases r with
      | oob => exact absurd (hr _ _ e1.symm) (by simp)
      | ok =>
        refine ⟨rfl, fun b' e => ?_⟩
        cases e
        exact ⟨i1.size, i1.len, i1.backLen, i1.text⟩
  have at_ : ∀ pos, ({ b with cursor := pos } : Buf).Inv := fun pos => ⟨h.size, h.len, h.backLen, h.text⟩
  cases op with
  | writeChar ch =>
    have := str b [ch] h hf
    rw [(C55_append env b [] [] ch).2.2.1] at this
    exact this
  | writeStr s => exact str b s h hf
  | writeAt pos s =>
    simp only [BufOp.run, Buf.writeAt, Pic.draw]
    by_cases hp : InBounds pos b.size
    · have hp' : InBounds pos (picOf b).size := hp
      rw [if_pos hp', tryCursorAt_ok.mpr hp]
      exact str _ s (at_ pos) (hf hp)
    · have hp' : ¬ InBounds pos (picOf b).size := hp
      rw [if_neg hp', tryCursorAt_oob.mpr hp]
      exact ⟨rfl, fun b' e => by cases e; exact h⟩
  | writeStyled fg bg st s => exact sty b fg bg st s h hf.1 hf.2
  | writeStyledAt pos fg bg st s =>
    simp only [BufOp.run, Buf.writeStyledAt, Pic.draw]
    by_cases hp : InBounds pos b.size
    · have hp' : InBounds pos (picOf b).size := hp
      rw [if_pos hp', tryCursorAt_ok.mpr hp]
      exact sty _ fg bg st s (at_ pos) (hf hp).1 (hf hp).2
    · have hp' : ¬ InBounds pos (picOf b).size := hp
      rw [if_neg hp', tryCursorAt_oob.mpr hp]
      exact ⟨rfl, fun b' e => by cases e; exact h⟩
  | resize s =>
    refine ⟨C55_exact env b h _ hf, fun b' e => ?_⟩
    have e : b.resize s = some b' := e
    obtain ⟨b1, e1, i1⟩ := resize_inv h (s := s) hf
    rw [e] at e1
    cases e1
    exact i1.1
  | nextLine c =>
    refine ⟨C55_exact env b h _ trivial, fun b' e => ?_⟩
    simp only [BufOp.run, Buf.nextLine, uadd] at e
    split at e
    · cases e; exact ⟨h.size, h.len, h.backLen, h.text⟩
    · cases e
  | clearScreen =>
    refine ⟨C55_exact env b h _ trivial, fun b' e => ?_⟩
    cases e
    refine ⟨h.size, by simp only [Buf.clearScreen, List.length_map]; exact h.len, h.backLen, ?_⟩
    intro c hc
    simp only [Buf.clearScreen, List.mem_map] at hc
    obtain ⟨_, -, rfl⟩ := hc
    simp [Cell.default]
  | _ =>
    refine ⟨C55_exact env b h _ trivial, fun b' e => ?_⟩
    cases e
    exact ⟨h.size, h.len, h.backLen, h.text⟩

/-- A history. -/
theorem ops_ref {env : UEnv} (henv : SpaceOk env) (ops : List BufOp) {b : Buf} (h : b.Inv)
    (hf : (picOf b).TameRun env ops) :
    (runOps env ops b).map picOf = Pic.drawAll env ops (picOf b) ∧
      ∀ b', runOps env ops b = some b' → b'.Inv := by
  induction ops generalizing b with
  | nil => exact ⟨rfl, fun b' e => by cases e; exact h⟩
  | cons op ops ih =>
    obtain ⟨e1, i1⟩ := op_ref henv h op hf.1
    unfold runOps Pic.drawAll
    rw [← e1]
    cases e : op.run env b with
    | none => exact ⟨rfl, fun b' e => by cases e⟩
    | some b1 =>
      rw [e] at e1
      exact ih (i1 _ e) (hf.2 _ e1.symm)

theorem picOf_new (s : Size) : picOf (Buf.new s) = Pic.fresh s := by
  refine pic_ext rfl (fun c => ?_) rfl rfl rfl rfl
  by_cases hin : InBounds c s
  · have hin' : InBounds c (Buf.new s).size := hin
    rw [picOf_cell hin']
    have hlt : numOf s c < s.area := numOf_lt hin
    simp only [Pic.fresh, if_pos hin, Buf.new]
    rw [List.getElem?_replicate, if_pos hlt]
    rfl
  · have hin' : ¬ InBounds c (Buf.new s).size := hin
    rw [picOf_out hin']
    simp only [Pic.fresh, if_neg hin]

/-- A mark after a two-column character is not put where it belongs. -/
theorem mark_differs {env : UEnv} {b : Buf} (h : b.Inv) {ch : Char} (hm : Mark env ch)
    (hne : (picOf b).markAt env ≠ posBefore b.size b.cursor) :
    (b.writeChar env ch).map refRes ≠ (picOf b).char env ch := by
  have hctl := hm.ctl
  simp only [List.mem_cons, List.not_mem_nil, or_false, not_or] at hctl
  have hsz : (picOf b).size = b.size := rfl
  have hcu : (picOf b).cursor = b.cursor := rfl
  cases hp : posBefore b.size b.cursor with
  | none =>
    unfold Pic.markAt at hne
    rw [hsz, hcu, hp] at hne
    exact absurd rfl hne
  | some c =>
    have hmark : 0 < c.column ∧ (picOf b).wideAt env ⟨c.line, c.column - 1⟩ = true ∧
        (picOf b).markAt env = some ⟨c.line, c.column - 1⟩ := by
      unfold Pic.markAt at hne ⊢
      rw [hsz, hcu, hp] at hne ⊢
      dsimp only at hne ⊢
      by_cases k : 0 < c.column ∧ (picOf b).wideAt env ⟨c.line, c.column - 1⟩ = true
      · exact ⟨k.1, k.2, by rw [if_pos k]⟩
      · rw [if_neg k] at hne
        exact absurd rfl hne
    obtain ⟨k1, k2, k3⟩ := hmark
    have hd : InBounds (⟨c.line, c.column - 1⟩ : Cursor) b.size := by
      apply Classical.byContradiction
      intro hh
      rw [wideAt_out hh] at k2
      cases k2
    have hd' : InBounds (⟨c.line, c.column - 1⟩ : Cursor) (picOf b).size := hd
    unfold Pic.char
    rw [if_neg hctl.1, if_neg hctl.2.1, if_neg hctl.2.2, if_pos hm.comb, k3]
    dsimp only
    rw [if_pos hd', writeChar_eq_NT hctl.2.2]
    rw [posBefore_eq] at hp
    rcases writeCharNT_comb h hm with ⟨e1, -⟩ | ⟨d, e1, e2, e3⟩ | ⟨d, -, -, e3⟩
    · rw [hp] at e1; cases e1
    · rw [hp] at e1
      cases e1
      rw [e3]
      intro e
      have e := congrArg (fun x => x.map fun y => y.1.cell ⟨c.line, c.column - 1⟩) e
      simp only [Option.map_some, refRes, Option.some.injEq, if_true] at e
      have hd2 : InBounds (⟨c.line, c.column - 1⟩ : Cursor)
        ({ b with buffer := b.buffer.modify (c.asIndex b.size) (addMark ch) } : Buf).size := hd
      rw [picOf_cell hd2, picOf_cell hd] at e
      dsimp only at e
      have hlt : numOf b.size ⟨c.line, c.column - 1⟩ < b.buffer.length := by
        rw [h.len]; exact numOf_lt hd
      have hne : ¬ c.asIndex b.size = numOf b.size ⟨c.line, c.column - 1⟩ := by
        unfold Cursor.asIndex numOf; dsimp only; omega
      rw [List.getElem?_modify, List.getElem?_eq_getElem hlt] at e
      simp only [hne, if_false, Option.map_eq_map, Option.map_some, Option.some.injEq] at e
      have := congrArg (fun x => x.text.length) e
      simp at this
    · rw [e3]
      intro e
      have e := congrArg (fun x => x.map fun y => y.2) e
      simp [refRes] at e

/-- A character that does not fit on the line leaves a copy of itself where blanks should be. -/
theorem wrap_differs {env : UEnv} (henv : SpaceOk env) {b : Buf} (h : b.Inv) {ch : Char}
    (hp : Printable env ch) (hc : InBounds b.cursor b.size)
    (hfit : ¬ b.cursor.column + env.w ch ≤ b.size.columns) (hw : env.w ch ≤ b.size.columns) :
    (b.writeChar env ch).map refRes ≠ (picOf b).char env ch := by
  have hd : Drawn env ch := ⟨hp.cr, hp.lf, hp.tab, hp.comb, by have := hp.width; omega⟩
  have hsp : ch ≠ ' ' := by
    rintro rfl
    have := w_space henv
    have := hc.2
    omega
  have hc' : InBounds (picOf b).cursor (picOf b).size := hc
  have hfit' : ¬ (picOf b).cursor.column + env.w ch ≤ (picOf b).size.columns := hfit
  have hin := hc.1
  have hcol := hc.2
  -- the code
  have hcode : ∃ b' r, b.writeChar env ch = some (b', r) ∧ (picOf b').cell b.cursor = some (b.cellOf ch) := by
    rw [writeChar_eq_NT hp.tab, writeCharNT_wrap h hd hc (by omega) hw]
    have hlen : (tear env b.ix b.buffer).length = b.size.lines * b.size.columns := by
      rw [tear_length, h.len]
    have hix : b.ix < b.size.lines * b.size.columns := numOf_lt hc
    have hget : (setRange (b.cellOf ch) b.ix (b.size.columns - b.cursor.column)
        (tear env b.ix b.buffer))[b.ix]? = some (b.cellOf ch) := by
      rw [setRange_get, if_pos (by omega)]
    split
    · rename_i hl
      refine ⟨_, _, rfl, ?_⟩
      rw [picOf_cell (by exact hc)]
      dsimp only
      have hlt2 : (b.cursor.line + 1) * b.size.columns < b.size.lines * b.size.columns :=
        Nat.mul_lt_mul_of_pos_right hl (by omega)
      have hnum : numOf b.size b.cursor = b.ix := rfl
      have hixv : b.ix = b.cursor.line * b.size.columns + b.cursor.column := rfl
      have hmul : (b.cursor.line + 1) * b.size.columns = b.cursor.line * b.size.columns + b.size.columns := by
        rw [Nat.add_mul, Nat.one_mul]
      rw [hnum, placed_get _ _ _ _ _ (by rw [setRange_length, hlen]; exact hlt2), if_neg (by omega),
        if_neg (by omega)]
      exact hget
    · refine ⟨_, _, rfl, ?_⟩
      rw [picOf_cell (by exact hc)]
      exact hget
  obtain ⟨b', r, e1, e2⟩ := hcode
  rw [e1]
  unfold Pic.char
  rw [if_neg hp.cr, if_neg hp.lf, if_neg hp.tab, if_neg (by simp [hp.comb]), if_neg hp.width, if_pos hc',
    if_neg hfit']
  dsimp only
  -- the reference leaves a space
  have hq : ((picOf b).put env b.cursor (b.size.columns - b.cursor.column) ' ').cell b.cursor =
      some (b.cellOf ' ') := by
    unfold Pic.put; dsimp only; rw [if_pos rfl]; rfl
  have hnw : ((picOf b).put env b.cursor (b.size.columns - b.cursor.column) ' ').wideAt env b.cursor = false := by
    unfold Pic.wideAt; rw [hq]
    simp [henv.width]
  have hne : ∀ x, some (b.cellOf ch) = x → x ≠ some (b.cellOf ' ') := by
    rintro x rfl e
    simp [Buf.cellOf] at e
    exact hsp e
  split
  · intro e
    have e := congrArg (fun x => x.map fun y => y.1.cell b.cursor) e
    simp only [Option.map_some, refRes, Option.some.injEq] at e
    rw [e2] at e
    refine hne _ e ?_
    change (((picOf b).put env b.cursor (b.size.columns - b.cursor.column) ' ').put env
      ⟨b.cursor.line + 1, 0⟩ (env.w ch) ch).cell b.cursor = _
    rw [Pic.put]
    dsimp only
    rw [if_neg, if_neg, if_neg, hq]
    · rintro ⟨-, hh⟩
      rw [hnw] at hh; cases hh
    · rintro ⟨hh, -⟩; omega
    · intro hh
      have := congrArg Cursor.line hh
      dsimp only at this
      omega
  · intro e
    have e := congrArg (fun x => x.map fun y => y.1.cell b.cursor) e
    simp only [Option.map_some, refRes, Option.some.injEq] at e
    rw [e2] at e
    exact hne _ e hq

/-! ## Histories without two-column characters -/

/-- No cell holds a two-column character. -/
def AllThin (env : UEnv) (p : Pic) : Prop := ∀ c, p.wideAt env c = false

theorem wideAt_some {env : UEnv} {p : Pic} {c : Cursor} {x : Cell} (h : p.cell c = some x) :
    p.wideAt env c = match x.text with | ch :: _ => env.width ch == some 2 | [] => false := by
  unfold Pic.wideAt
  rw [h]
  obtain ⟨_, _, _, t⟩ := x
  cases t <;> rfl

theorem width_of_w {env : UEnv} {ch : Char} (h : env.w ch ≠ 2) : (env.width ch == some 2) = false := by
  unfold UEnv.w at h
  cases e : env.width ch with
  | none => rfl
  | some n =>
    rw [e] at h
    simp only [Option.getD_some] at h
    simpa using h

theorem thin_put {env : UEnv} (henv : SpaceOk env) {p : Pic} (h : AllThin env p) {pos : Cursor} {w : Nat}
    {ch : Char} (hw : env.w ch ≠ 2) : AllThin env (p.put env pos w ch) := by
  have hs : (env.width ' ' == some 2) = false := by rw [henv.width]; rfl
  intro c
  by_cases k1 : c = pos
  · have : (p.put env pos w ch).cell c = some (p.ink ch) := if_pos k1
    rw [wideAt_some this]
    exact width_of_w hw
  by_cases k2 : c.line = pos.line ∧ pos.column < c.column ∧ c.column < pos.column + w
  · have : (p.put env pos w ch).cell c = some (p.ink ' ') := (if_neg k1).trans (if_pos k2)
    rw [wideAt_some this]
    exact hs
  · have : (p.put env pos w ch).cell c = p.cell c := by
      refine (if_neg k1).trans ((if_neg k2).trans (if_neg ?_))
      rintro ⟨-, hh⟩
      rw [h c] at hh; cases hh
    unfold Pic.wideAt
    rw [this]
    exact h c

theorem thin_mark {env : UEnv} {p : Pic} (h : AllThin env p) : p.markAt env = posBefore p.size p.cursor := by
  unfold Pic.markAt
  cases posBefore p.size p.cursor with
  | none => rfl
  | some c =>
    dsimp only
    rw [if_neg]
    rintro ⟨-, hh⟩
    rw [h] at hh; cases hh

theorem thin_char {env : UEnv} (henv : SpaceOk env) {p p' : Pic} {r : Bool} (h : AllThin env p) {ch : Char}
    (hw : env.w ch ≠ 2) (e : p.char env ch = some (p', r)) : AllThin env p' := by
  have hsp : env.w ' ' ≠ 2 := by rw [w_space henv]; decide
  unfold Pic.char at e
  split at e
  · cases e; exact h
  split at e
  · split at e
    · cases e; exact h
    · cases e
  split at e
  · split at e
    · dsimp only at e; cases e; exact thin_put henv h hsp
    · cases e; exact h
  split at e
  · split at e
    · cases e; exact h
    · rename_i c _
      split at e
      · cases e
        intro d
        by_cases k : d = c
        · subst k
          have h0 := h d
          obtain ⟨o, hx⟩ : ∃ o, p.cell d = o := ⟨_, rfl⟩
          cases o with
          | none =>
            unfold Pic.wideAt
            dsimp only
            rw [if_pos rfl, hx]
            rfl
          | some x =>
            rw [wideAt_some hx] at h0
            have : (({ p with cell := fun d' => if d' = d then (p.cell d).map fun x =>
              { x with text := x.text ++ [ch] } else p.cell d' } : Pic)).cell d =
                some { x with text := x.text ++ [ch] } := by
              dsimp only; rw [if_pos rfl, hx]; rfl
            rw [wideAt_some this]
            dsimp only
            cases ht : x.text with
            | nil => exact width_of_w hw
            | cons a t => rw [ht] at h0; exact h0
        · have := h d
          unfold Pic.wideAt at this ⊢
          dsimp only
          rw [if_neg k]
          exact this
      · cases e; exact h
  split at e
  · cases e; exact h
  split at e
  · split at e
    · cases e; exact thin_put henv h hw
    · dsimp only at e
      split at e
      · cases e; exact thin_put henv (thin_put henv h hsp) hw
      · cases e; exact thin_put henv h hsp
  · cases e; exact h

theorem thin_fits {env : UEnv} (hle : ∀ ch, env.w ch ≤ 2) {p : Pic} (h : AllThin env p) {ch : Char}
    (hw : env.w ch ≠ 2) : p.Fits env ch := by
  refine ⟨fun _ => thin_mark h, fun hp hc => ?_⟩
  have := hle ch
  have := hp.width
  have := hc.2
  omega

theorem thin_text {env : UEnv} (henv : SpaceOk env) (hle : ∀ ch, env.w ch ≤ 2) (s : List Char) {p : Pic}
    (h : AllThin env p) (hw : ∀ ch ∈ s, env.w ch ≠ 2) :
    p.Tame env s ∧ ∀ p' r, p.text env s = some (p', r) → AllThin env p' := by
  induction s generalizing p with
  | nil => exact ⟨trivial, fun p' r e => by cases e; exact h⟩
  | cons ch s ih =>
    have h1 := hw ch (List.mem_cons_self ..)
    have h2 := fun c hc => hw c (List.mem_cons_of_mem _ hc)
    refine ⟨⟨thin_fits hle h h1, fun p' e => (ih (thin_char henv h h1 e) h2).1⟩, ?_⟩
    intro p' r e
    unfold Pic.text at e
    split at e
    · cases e
    · rename_i q e1
      exact (ih (thin_char henv h h1 e1) h2).2 _ _ e
    · rename_i q e1
      cases e
      exact thin_char henv h h1 e1

theorem thin_op {env : UEnv} (henv : SpaceOk env) (hle : ∀ ch, env.w ch ≤ 2) {p : Pic} (op : BufOp)
    (h : AllThin env p) (hw : ∀ ch ∈ opText op, env.w ch ≠ 2) (hr : p.RoomOp env op) :
    p.TameOp env op ∧ ∀ p', p.draw env op = some p' → AllThin env p' := by
  have hb : (env.width ' ' == some 2) = false := by rw [henv.width]; rfl
  cases op with
  | writeChar ch =>
    obtain ⟨h1, h2⟩ := thin_text henv hle [ch] h hw
    refine ⟨h1, fun p' e => ?_⟩
    obtain ⟨x, e2, rfl⟩ := Option.map_eq_some_iff.mp e
    exact h2 _ _ e2
  | writeStr s =>
    obtain ⟨h1, h2⟩ := thin_text henv hle s h hw
    refine ⟨h1, fun p' e => ?_⟩
    obtain ⟨x, e2, rfl⟩ := Option.map_eq_some_iff.mp e
    exact h2 _ _ e2
  | writeAt pos s =>
    obtain ⟨h1, h2⟩ := thin_text henv hle s (p := { p with cursor := pos }) h hw
    refine ⟨fun _ => h1, fun p' e => ?_⟩
    simp only [Pic.draw] at e
    split at e
    · obtain ⟨x, e2, rfl⟩ := Option.map_eq_some_iff.mp e
      exact h2 _ _ e2
    · cases e; exact h
  | writeStyled fg bg st s =>
    obtain ⟨h1, h2⟩ := thin_text henv hle s (p := p.inked fg bg st) h hw
    refine ⟨⟨h1, hr⟩, fun p' e => ?_⟩
    obtain ⟨x, e2, rfl⟩ := Option.map_eq_some_iff.mp e
    exact h2 x.1 x.2 e2
  | writeStyledAt pos fg bg st s =>
    obtain ⟨h1, h2⟩ := thin_text henv hle s (p := ({ p with cursor := pos } : Pic).inked fg bg st) h hw
    refine ⟨fun hp => ⟨h1, hr hp⟩, fun p' e => ?_⟩
    simp only [Pic.draw] at e
    split at e
    · obtain ⟨x, e2, rfl⟩ := Option.map_eq_some_iff.mp e
      exact h2 x.1 x.2 e2
    · cases e; exact h
  | resize s =>
    refine ⟨hr, fun p' e => ?_⟩
    cases e
    intro c
    have := h c
    unfold Pic.wideAt at this ⊢
    dsimp only
    split
    · rename_i ch _ heq
      split at heq
      · split at heq
        · rw [heq] at this; exact this
        · cases heq; exact hb
      · cases heq
    · rfl
  | clearScreen =>
    refine ⟨trivial, fun p' e => ?_⟩
    cases e
    intro c
    unfold Pic.wideAt
    dsimp only
    split
    · rename_i heq
      split at heq
      · cases heq; exact hb
      · cases heq
    · rfl
  | nextLine c =>
    refine ⟨trivial, fun p' e => ?_⟩
    simp only [Pic.draw, Pic.after] at e
    split at e
    · cases e; exact h
    · cases e
  | _ => exact ⟨trivial, fun p' e => by cases e; exact h⟩

theorem thin_run {env : UEnv} (henv : SpaceOk env) (hle : ∀ ch, env.w ch ≤ 2) (ops : List BufOp) {p : Pic}
    (h : AllThin env p) (hw : ∀ op ∈ ops, ∀ ch ∈ opText op, env.w ch ≠ 2) (hr : p.RoomRun env ops) :
    p.TameRun env ops ∧ ∀ p', Pic.drawAll env ops p = some p' → AllThin env p' := by
  induction ops generalizing p with
  | nil => exact ⟨trivial, fun p' e => by cases e; exact h⟩
  | cons op ops ih =>
    obtain ⟨h1, h2⟩ := thin_op henv hle op h (hw op (List.mem_cons_self ..)) hr.1
    have hw' := fun o ho => hw o (List.mem_cons_of_mem _ ho)
    refine ⟨⟨h1, fun p' e => (ih (h2 p' e) hw' (hr.2 p' e)).1⟩, fun p' e => ?_⟩
    unfold Pic.drawAll at e
    cases e1 : p.draw env op with
    | none => rw [e1] at e; cases e
    | some q => rw [e1] at e; exact (ih (h2 q e1) hw' (hr.2 q e1)).2 p' e

theorem thin_fresh {env : UEnv} (henv : SpaceOk env) (s : Size) : AllThin env (Pic.fresh s) := by
  intro c
  unfold Pic.wideAt Pic.fresh
  dsimp only
  split
  · rename_i heq
    split at heq
    · cases heq; rw [henv.width]; rfl
    · cases heq
  · rfl

end Mortal
