import Verif.Lemmas.ScreenSafe
import Verif.Lemmas.BufferAttrs

/-! # Histories of a screen -/

namespace Mortal
open Spec

/-! ## Drawing calls -/

/-- What a drawing call can do to the grid. -/
structure OpEffect (u : UEnv) (text : List Char) (b b' : Buf) : Prop where
  size : b'.size = b.size
  back : b'.back = b.back
  cells : (∃ fg bg st, Chg u fg bg st text b.buffer b'.buffer) ∨ ∀ c ∈ b'.buffer, c = Cell.default

theorem effect_wrote {u : UEnv} {t : List Char} {b b' : Buf} (h : Wrote u t b b') :
    OpEffect u t b b' :=
  ⟨h.frame.1, h.frame.2.1, Or.inl ⟨_, _, _, h.cells⟩⟩

theorem effect_same {u : UEnv} {t : List Char} {b b' : Buf} (h1 : b'.size = b.size)
    (h2 : b'.back = b.back) (h3 : b'.buffer = b.buffer) : OpEffect u t b b' :=
  ⟨h1, h2, Or.inl ⟨none, none, 0#8, by rw [h3]; exact Chg.refl _⟩⟩

theorem effect_of {u : UEnv} {t : List Char} {b0 b b' : Buf} (h : OpEffect u t b b')
    (h1 : b.size = b0.size) (h2 : b.back = b0.back) (h3 : b.buffer = b0.buffer) :
    OpEffect u t b0 b' :=
  ⟨h.size.trans h1, h.back.trans h2, by rw [← h3]; exact h.cells⟩

theorem op_effect {u : UEnv} (hu : SpaceOk u) {op : BufOp} (hop : ∀ z, op ≠ .resize z) {b b' : Buf}
    (e : op.run u b = some b') : OpEffect u (opText op) b b' := by
  have styled : ∀ (b : Buf) (s : List Char) (fg bg : Option Color) (st : Style) (b1 : Buf),
      (b.writeStyled u fg bg st s).map (·.1) = some b1 → OpEffect u s b b1 := by
    intro b s fg bg st b1 e
    unfold Buf.writeStyled at e
    cases e2 : ({ b with fg := fg, bg := bg, style := st } : Buf).writeStr u s with
    | none => rw [e2] at e; cases e
    | some x =>
      obtain ⟨b2, r2⟩ := x
      rw [e2] at e
      have h := effect_of (b0 := b) (effect_wrote (wrote_writeStr hu.comb e2)) rfl rfl rfl
      cases r2 with
      | ok =>
        simp at e
        subst e
        exact ⟨h.size, h.back, h.cells⟩
      | oob =>
        simp at e
        subst e
        exact h
  cases op with
  | resize z => exact absurd rfl (hop z)
  | writeChar ch =>
    simp only [BufOp.run, Option.map_eq_some_iff] at e
    obtain ⟨⟨b2, r2⟩, e2, rfl⟩ := e
    exact effect_wrote (wrote_writeChar (List.mem_singleton.mpr rfl) hu.comb e2)
  | writeStr s =>
    simp only [BufOp.run, Option.map_eq_some_iff] at e
    obtain ⟨⟨b2, r2⟩, e2, rfl⟩ := e
    exact effect_wrote (wrote_writeStr hu.comb e2)
  | writeAt pos s =>
    simp only [BufOp.run, Option.map_eq_some_iff] at e
    obtain ⟨⟨b2, r2⟩, e2, rfl⟩ := e
    unfold Buf.writeAt at e2
    split at e2
    · simp at e2
      exact effect_same (by rw [e2.1]) (by rw [e2.1]) (by rw [e2.1])
    · exact effect_of (effect_wrote (wrote_writeStr hu.comb e2)) rfl rfl rfl
  | writeStyled fg bg st s => exact styled b s fg bg st b' e
  | writeStyledAt pos fg bg st s =>
    simp only [BufOp.run] at e
    unfold Buf.writeStyledAt at e
    split at e
    · simp at e
      exact effect_same (by rw [e]) (by rw [e]) (by rw [e])
    · exact effect_of (styled _ s fg bg st b' e) rfl rfl rfl
  | nextLine c =>
    simp only [BufOp.run, Buf.nextLine, uadd] at e
    split at e
    · simp at e; subst e; exact effect_same rfl rfl rfl
    · cases e
  | clearScreen =>
    simp only [BufOp.run, Option.some.injEq] at e
    subst e
    refine ⟨rfl, rfl, Or.inr ?_⟩
    intro c hc
    simp [Buf.clearScreen] at hc
    simp_all
  | setCursor | clearAttributes | addStyle | removeStyle | setStyle | setFg | setBg | setTheme =>
    simp [BufOp.run] at e; subst e; exact effect_same rfl rfl rfl

theorem effect_cells {u : UEnv} {t : List Char} {b b' : Buf} (h : OpEffect u t b b')
    {Q : Cell → Prop} (h0 : Q Cell.default)
    (hq : ∀ fg bg st c c', CellChange u fg bg st t c c' → Q c → Q c')
    (hb : ∀ c ∈ b.buffer, Q c) : ∀ c ∈ b'.buffer, Q c := by
  intro c hc
  rcases h.cells with ⟨fg, bg, st, hl, hch⟩ | hd
  · obtain ⟨i, hi⟩ := List.mem_iff_getElem?.mp hc
    have hlt : i < b.buffer.length := by
      rw [← hl]; exact (List.getElem?_eq_some_iff.mp hi).1
    have ho := List.getElem?_eq_getElem hlt
    exact hq fg bg st _ _ (hch i _ c ho hi) (hb _ (List.mem_of_getElem? ho))
  · rw [hd c hc]; exact h0

theorem good_default {u : UEnv} (hT : TableOk u) : CellGood u Cell.default := by
  refine ⟨' ', [], rfl, Or.inl ?_, by decide, by simp⟩
  simp [UEnv.w, hT.space.width]

theorem good_change {u : UEnv} (hT : TableOk u) {text : List Char} (hm : ThinMarks u text)
    (fg bg : Option Color) (st : Style) (c c' : Cell) (h : CellChange u fg bg st text c c')
    (hg : CellGood u c) : CellGood u c' := by
  induction h with
  | same => exact hg
  | drawn ch h =>
    rcases h with ⟨h1, h2⟩ | rfl
    · refine ⟨ch, [], rfl, ?_, ?_, by simp⟩
      · have := hT.le2 ch
        have := h2.width
        omega
      · intro hc
        exact h2.width (hT.ctl ch hc).1
    · exact ⟨' ', [], rfl, Or.inl (by simp [UEnv.w, hT.space.width]), by decide, by simp⟩
  | blank => exact ⟨' ', [], rfl, Or.inl (by simp [UEnv.w, hT.space.width]), by decide, by simp⟩
  | mark c m _ hmem hcomb ih =>
    obtain ⟨ch, ms, e1, e2, e3, e4⟩ := ih
    refine ⟨ch, ms ++ [m], by simp [e1], e2, e3, ?_⟩
    intro x hx
    rcases List.mem_append.mp hx with hx | hx
    · exact e4 x hx
    · rw [List.mem_singleton] at hx
      subst hx
      refine ⟨hm x hmem hcomb, fun hc => ?_⟩
      rw [(hT.ctl x hc).2] at hcomb
      cases hcomb

theorem wide_head {u : UEnv} {c : Cell} {ch : Char} {ms : List Char} (h : c.text = ch :: ms) :
    c.isWide u = true ↔ u.w ch = 2 := by
  unfold Cell.isWide
  rw [h]
  simp

theorem narrow_change {u : UEnv} (hT : TableOk u) {text : List Char}
    (hm : ∀ ch ∈ text, u.w ch ≠ 2)
    (fg bg : Option Color) (st : Style) (c c' : Cell) (h : CellChange u fg bg st text c c')
    (hg : c.text ≠ [] ∧ c.isWide u = false) : c'.text ≠ [] ∧ c'.isWide u = false := by
  have hsp : u.w ' ' ≠ 2 := by simp [UEnv.w, hT.space.width]
  induction h with
  | same => exact hg
  | drawn ch h =>
    refine ⟨by simp, ?_⟩
    have : u.w ch ≠ 2 := by
      rcases h with ⟨h1, h2⟩ | rfl
      · exact hm ch h1
      · exact hsp
    simpa [Cell.isWide] using this
  | blank => exact ⟨by simp, by simpa [Cell.isWide] using hsp⟩
  | mark c m _ hmem hcomb ih =>
    refine ⟨by simp, ?_⟩
    have h1 := ih.1
    have h2 := ih.2
    cases ht : c.text with
    | nil => exact absurd ht h1
    | cons ch ms =>
      simp only [Cell.isWide, ht] at h2
      simpa [Cell.isWide, ht] using h2

theorem safe_narrow {u : UEnv} (hT : TableOk u) (s : List Char) (hs : ∀ ch ∈ s, u.w ch ≠ 2)
    {b : Buf} (hc : 0 < b.size.columns) : SafeText u b s := by
  induction s generalizing b with
  | nil => trivial
  | cons ch s ih =>
    have h1 := hs ch (List.mem_cons_self ..)
    have h2 := hT.le2 ch
    refine ⟨by omega, fun h => h1 h.1, fun b' e => ?_⟩
    have hf := (wrote_writeChar (List.mem_singleton.mpr rfl) hT.space.comb e).frame
    exact ih (fun c hc => hs c (List.mem_cons_of_mem _ hc)) (by rw [hf.1]; exact hc)

theorem safeOp_narrow {u : UEnv} (hT : TableOk u) {op : BufOp} (hop : ∀ z, op ≠ .resize z)
    (hs : ∀ ch ∈ opText op, u.w ch ≠ 2) {b : Buf} (hc : 0 < b.size.columns) : SafeOp u b op := by
  cases op with
  | resize z => exact absurd rfl (hop z)
  | writeChar ch => exact safe_narrow hT _ hs hc
  | writeStr s => exact safe_narrow hT _ hs hc
  | writeAt pos s => exact safe_narrow hT _ hs hc
  | writeStyled fg bg st s => exact safe_narrow hT _ hs hc
  | writeStyledAt pos fg bg st s => exact safe_narrow hT _ hs hc
  | setCursor | clearAttributes | addStyle | removeStyle | setStyle | setFg | setBg | setTheme
  | nextLine | clearScreen => trivial

/-- A drawing call keeps the records in agreement with the terminal. -/
theorem Held.draw {u : UEnv} (hT : TableOk u) {X : Nat → Prop} {s : Scr} {t : Term}
    (h : Held u X s t) {op : BufOp} (hop : ∀ z, op ≠ .resize z) (hsafe : SafeOp u s.buf op)
    (hm : ThinMarks u (opText op)) {b' : Buf} (e : op.run u s.buf = some b') :
    Held u X { s with buf := b' } t := by
  have he := op_effect hT.space hop e
  obtain ⟨hi, hn⟩ := noTorn_runOps hT.space [op] s.buf h.grid h.torn ⟨hsafe, fun _ _ => trivial⟩
    (by rw [runOps, e]; rfl)
  refine { grid := hi, good := ?_, torn := hn, size := ?_, l32 := ?_, c32 := ?_,
           paired := h.paired, lk := h.lk, bk := ?_, cur := h.cur, inval := ?_ }
  · exact effect_cells he (good_default hT) (fun fg bg st c c' => good_change hT hm fg bg st c c')
      h.good
  · show t.size = b'.size
    rw [he.size]; exact h.size
  · show b'.size.lines ≤ _
    rw [he.size]; exact h.l32
  · show b'.size.columns ≤ _
    rw [he.size]; exact h.c32
  · intro j c hj
    exact h.bk j c (by rw [← he.back]; exact hj)
  · intro hc c hcm
    refine h.inval hc c ?_
    rw [← he.back]; exact hcm

theorem noWide_draw {u : UEnv} (hT : TableOk u) {op : BufOp} (hop : ∀ z, op ≠ .resize z)
    (hs : ∀ ch ∈ opText op, u.w ch ≠ 2) {b b' : Buf} (hi : b.Inv) (hn : NoWide u b)
    (e : op.run u b = some b') : NoWide u b' := by
  have he := op_effect hT.space hop e
  have := effect_cells he (Q := fun c => c.text ≠ [] ∧ c.isWide u = false)
    ⟨by simp [Cell.default], by
      have : u.w ' ' ≠ 2 := by simp [UEnv.w, hT.space.width]
      simpa [Cell.default, Cell.isWide] using this⟩
    (fun fg bg st c c' => narrow_change hT hs fg bg st c c')
    (fun c hc => ⟨hi.text c hc, hn c hc⟩)
  exact fun c hc => (this c hc).2

/-! ## Resize events -/

theorem resize_cells {b b' : Buf} (h : b.Inv) {z : Size} (hz : GoodSize z)
    (e : b.resize z = some b') {Q : Cell → Prop} (h0 : Q Cell.default) (hb : ∀ c ∈ b.buffer, Q c) :
    ∀ c ∈ b'.buffer, Q c := by
  obtain ⟨b2, e2, hi, hsz, -, -, -, -, -, hget⟩ := resize_inv h hz
  rw [e2, Option.some.injEq] at e
  subst e
  intro c hc
  obtain ⟨i, hi'⟩ := List.mem_iff_getElem?.mp hc
  have hlt : i < z.lines * z.columns := by
    rw [← hsz, ← hi.len]; exact (List.getElem?_eq_some_iff.mp hi').1
  have h1 : i / z.columns < z.lines := Nat.div_lt_of_lt_mul (by rwa [Nat.mul_comm])
  have h2 : i % z.columns < z.columns := Nat.mod_lt _ hz.2.1
  have h3 := hget _ _ h1 h2
  rw [Nat.div_add_mod' i z.columns, hi'] at h3
  split at h3
  · exact hb c (List.mem_of_getElem? h3.symm)
  · rw [Option.some.injEq] at h3
    rw [h3]; exact h0

theorem Held.resized {u : UEnv} (hT : TableOk u) {X : Nat → Prop} {s : Scr} {t : Term}
    (h : Held u X s t) {z : Size} (hz : ScreenSize z) (hsafe : SafeOp u s.buf (.resize z))
    {cell : Cursor → TCell} {cur : Option Cursor}
    (hp : Term.Paired { size := z, cell := cell, cur := none, last := none, attrs := .plain })
    {d : SData} (e : s.updateSize z = some d) :
    Held u (fun _ => False) { d with w := s.w }
      { size := z, cell := cell, cur := cur, last := none, attrs := t.attrs, bce := t.bce } ∧ d.clear = true := by
  unfold SData.updateSize at e
  cases e1 : s.buf.resize z with
  | none => rw [e1] at e; cases e
  | some b' =>
    rw [e1] at e
    have e : _ = d := Option.some.inj e
    subst e
    obtain ⟨b2, e2, hi, hsz, -, -, -, -, hback, hget⟩ := resize_inv h.grid hz.1
    rw [e1, Option.some.injEq] at e2
    subst e2
    have hn := (noTorn_runOps hT.space [.resize z] s.buf h.grid h.torn ⟨hsafe, fun _ _ => trivial⟩
      (by show (s.buf.resize z).bind _ = _; rw [e1]; rfl)).2
    refine ⟨?_, rfl⟩
    refine { grid := hi, good := ?_, torn := hn, size := ?_, l32 := ?_, c32 := ?_,
             paired := hp, lk := ⟨h.lk.dev, h.lk.term⟩, bk := ?_, cur := ?_, inval := ?_ }
    · exact resize_cells h.grid hz.1 e1 (good_default hT) h.good
    · exact hsz.symm
    · show b'.size.lines ≤ _
      rw [hsz]; exact hz.2.1
    · show b'.size.columns ≤ _
      rw [hsz]; exact hz.2.2
    · intro j c hj hne
      have : c ∈ b'.back := List.mem_of_getElem? hj
      rw [hback, List.mem_replicate] at this
      exact absurd (by rw [this.2]; rfl) hne
    · intro hc; cases hc
    · intro _ c hc
      have hc : c ∈ b'.back := hc
      rw [hback, List.mem_replicate] at hc
      rw [hc.2]; rfl

/-! ## Opening -/

theorem expand_ok {env : WEnv} {c : Cap} {ps : List Nat} {f : List Nat → Bytes × Bool} {w w' : WS}
    (h : expand env c ps f w = .ok w') : w'.theme = w.theme ∧ w'.log = w.log ++ [.cap c ps] := by
  unfold expand at h
  rcases hf : f ps with ⟨b, good⟩
  rw [hf] at h
  cases good with
  | false => cases h
  | true => cases h; exact ⟨rfl, rfl⟩

theorem andThen_inv {σ : Type} {o : Outcome σ} {f : σ → Outcome σ} {s' : σ}
    (h : (o >>? f) = .ok s') : ∃ s, o = .ok s ∧ f s = .ok s' := by
  cases o with
  | ok s => exact ⟨s, rfl, h⟩
  | err e s => cases h
  | stop x => cases h

/-- What entering the alternate screen leaves on the terminal. -/
theorem enter_blank {u : UEnv} {env : WEnv} (hf : FullAttrs env) {z : Size} {w0 w : WS} {t0 : Term}
    (hl : Lk w0 t0) (e : enterScreen env (some z) w0 = .ok w) :
    ∃ new, w.log = w0.log ++ new ∧ t0.play u new = some { Term.blank z with size := t0.size, bce := t0.bce } ∧
      Lk w (Term.blank z) ∧ w.theme = plainTheme := by
  unfold enterScreen at e
  obtain ⟨w5, e5, e6⟩ := andThen_inv e
  obtain ⟨w4, e4, e5⟩ := andThen_inv e5
  split at e4
  case h_2 => cases e4
  case h_3 => cases e4
  case h_1 scroll home hs hh =>
  dsimp only at e4
  obtain ⟨w1, e1, e4⟩ := andThen_inv e4
  have h1 : ∃ n1 t1, w1.log = w0.log ++ n1 ∧ t0.play u n1 = some t1 ∧ Lk w1 t1 ∧
      t1.size = t0.size ∧ t1.bce = t0.bce := by
    unfold expandOpt at e1
    split at e1
    · obtain ⟨g1, g2⟩ := expand_ok e1
      exact ⟨_, { t0 with cell := fun _ => .torn, cur := none, last := none }, g2,
        by rw [play_one]; rfl, hl.push g1 g2 (by simp [IsAttrCap]) rfl, rfl, rfl⟩
    · cases e1
      exact ⟨[], t0, by simp, rfl, hl, rfl, rfl⟩
  obtain ⟨n1, t1, l1, p1, k1, z1, z2⟩ := h1
  cases hu : usub z.lines 1 with
  | none => rw [hu] at e4; cases e4
  | some l =>
    rw [hu] at e4
    dsimp only at e4
    obtain ⟨w2, e2, e3⟩ := andThen_inv e4
    obtain ⟨g2, l2⟩ := expand_ok e2
    obtain ⟨g3, l3⟩ := expand_ok e3
    have k2 : Lk w2 { t1 with cur := none, last := none } :=
      k1.push g2 l2 (by simp [IsAttrCap]) rfl
    have k3 : Lk w4 { t1 with cur := some ⟨0, 0⟩, last := none } :=
      k2.push g3 l3 (by simp [IsAttrCap]) rfl
    obtain ⟨w5', n5, e5', th5, l5, -, p5, k5⟩ := clear_step u hf k3
    rw [e5] at e5'
    cases e5'
    unfold expandReq at e6
    split at e6
    case h_2 => cases e6
    obtain ⟨g6, l6⟩ := expand_ok e6
    refine ⟨n1 ++ [.cap .changeScrollRegion [0, toU32 l]] ++ [.cap .cursorHome []] ++ n5 ++
      [.cap .clearScreen []], ?_, ?_, k5.push g6 l6 (by simp [IsAttrCap]) rfl, by rw [g6, th5]⟩
    · rw [l6, l5, l3, l2, l1]
      simp only [List.append_assoc]
    · rw [play_append, play_append, play_append, play_append, p1, Option.bind_some, play_one]
      show ((((some _ : Option Term).bind _).bind _).bind _) = _
      rw [Option.bind_some, play_one]
      show (((some _ : Option Term).bind _).bind _) = _
      rw [Option.bind_some, p5, Option.bind_some, play_one]
      show some _ = some _
      congr 1
      show Term.mk _ _ _ _ _ _ = Term.mk _ _ _ _ _ _
      rw [z1, z2]
      have : (if t0.bce then view plainTheme else DevAttrs.plain) = DevAttrs.plain := by
        split <;> rfl
      simp only [this]
      rfl

/-! ## What a refresh achieves -/

theorem numOf_posOf' {z : Size} (j : Nat) : numOf z (posOf z j) = j := numOf_posOf j

theorem posOf_numOf' {z : Size} {p : Cursor} (h : InBounds p z) : posOf z (numOf z p) = p := by
  have hc : 0 < z.columns := Nat.lt_of_le_of_lt (Nat.zero_le _) h.2
  unfold posOf numOf
  rw [cursor_ext]
  constructor
  · show (p.line * z.columns + p.column) / z.columns = p.line
    rw [Nat.mul_comm, Nat.mul_add_div hc, Nat.div_eq_of_lt h.2, Nat.add_zero]
  · show (p.line * z.columns + p.column) % z.columns = p.column
    rw [Nat.mul_comm, Nat.mul_add_mod, Nat.mod_eq_of_lt h.2]

theorem live_iff {u : UEnv} {b : Buf} (hn : NoTornIx u b.size.columns b.buffer) {p : Cursor}
    (hin : InBounds p b.size) : Live u b.buffer (numOf b.size p) ↔ ¬ RightHalf u b p := by
  unfold RightHalf Live
  by_cases h0 : 0 < p.column
  · have e : numOf b.size p - 1 = numOf b.size ⟨p.line, p.column - 1⟩ := by
      unfold numOf; dsimp only; omega
    have hne : numOf b.size p ≠ 0 := by unfold numOf; omega
    rw [e]
    constructor
    · rintro (h | h) ⟨-, c, h1, h2⟩
      · exact hne h
      · have := h c h1
        rw [isWide_iff.mpr h2] at this
        cases this
    · intro h
      refine Or.inr fun c hc => ?_
      cases hw : c.isWide u with
      | false => rfl
      | true => exact absurd ⟨h0, c, hc, isWide_iff.mp hw⟩ h
  · refine iff_of_true ?_ (fun h => h0 h.1)
    by_cases hz : numOf b.size p = 0
    · exact Or.inl hz
    · refine Or.inr fun c hc => ?_
      cases hw : c.isWide u with
      | false => rfl
      | true =>
        exfalso
        have := (hn _ c hc hw).1
        have hp0 : p.column = 0 := by omega
        unfold numOf at this hz
        rw [hp0] at this hz
        rw [Nat.add_zero] at hz
        obtain ⟨l, hl⟩ : ∃ l, p.line = l + 1 := by
          cases hpl : p.line with
          | zero => rw [hpl] at hz; simp at hz
          | succ l => exact ⟨l, rfl⟩
        have hcol : 0 < b.size.columns := by have := hin.2; omega
        have e : p.line * b.size.columns - 1 = b.size.columns * l + (b.size.columns - 1) := by
          rw [hl, Nat.add_mul, Nat.mul_comm]; omega
        have e' : p.line * b.size.columns + 0 - 1 = b.size.columns * l + (b.size.columns - 1) := e
        rw [e', Nat.mul_add_mod, Nat.mod_eq_of_lt (by omega)] at this
        omega

theorem After.shows {u : UEnv} {X : Nat → Prop} {s : Scr} {t : Term}
    (h : After u X s t) {p : Cursor} {c : Cell} (hin : InBounds p s.buf.size)
    (hc : cellAt s.buf p = some c) (hx : ¬ X (numOf s.buf.size p))
    (hr : ¬ RightHalf u s.buf p) : t.cell p = picture u c := by
  have := h.shown (numOf s.buf.size p) c ((live_iff h.torn hin).mpr hr) hx hc
  rw [h.size, posOf_numOf' hin] at this
  rw [this, picture_eq]

theorem After.displays {u : UEnv} (hu : SpaceOk u) {s : Scr} {t : Term}
    (h : After u (fun _ => False) s t) : Displays u t s.buf := by
  refine ⟨h.size, fun p c hin hc => ?_⟩
  split
  · rename_i hr
    obtain ⟨h0, c', h1, h2⟩ := hr
    have hin' : InBounds ⟨p.line, p.column - 1⟩ s.buf.size :=
      ⟨hin.1, by have := hin.2; dsimp only; omega⟩
    have hlive := live_of_wide hu h.torn (j := numOf s.buf.size ⟨p.line, p.column - 1⟩) h1
      (isWide_iff.mpr h2)
    have := h.shown _ c' hlive (fun h => h) h1
    rw [h.size, posOf_numOf' hin'] at this
    have hleft : (t.cell ⟨p.line, p.column - 1⟩).isLeft = true := by
      rw [this]; unfold pic; rw [isWide_iff.mpr h2]; rfl
    obtain ⟨x, d, e⟩ := isLeft_iff.mp hleft
    have := (h.paired.2 _ _ _ _ e).2.2
    have hp : p.column - 1 + 1 = p.column := by omega
    rw [hp] at this
    exact this
  · rename_i hr
    exact h.shows hin hc (fun h => h) hr

/-! ## Sessions without two-column characters -/

/-- Between the steps of such a session; the cells in `bad` may be wrong. -/
structure NInv (u : UEnv) (env : WEnv) (bad : List Nat) (x : Sess) : Prop where
  held : Held u (fun j => j ∈ bad) x.s x.t
  narrow : x.s.clear = true ∨ AllNarrow x.t
  noWide : NoWide u x.s.buf
  dlv : Delivered env x.s.w

theorem drop_append_length {α : Type} (a b : List α) : (a ++ b).drop a.length = b := by simp

theorem noWide_noRight {u : UEnv} {b : Buf} (h : NoWide u b) (p : Cursor) : ¬ RightHalf u b p := by
  rintro ⟨-, c, h1, h2⟩
  have := h c (List.mem_of_getElem? h1)
  rw [isWide_iff.mpr h2] at this
  cases this

theorem NInv.stale {u : UEnv} {env : WEnv} {bad : List Nat} {x : Sess} (h : NInv u env bad x) :
    NoStale u (fun j => j ∈ bad) x.s x.t := by
  intro hc j c _ _ _ _
  rcases h.narrow with e | e
  · rw [hc] at e; cases e
  · obtain ⟨y, d, e⟩ := e (posOf x.t.size j)
    rw [e]
    constructor <;> (intro e'; cases e')

/-- One step. -/
theorem NInv.step {u : UEnv} (hT : TableOk u) {env : WEnv} (hdb : DrawDB env) {bad : List Nat}
    {x x' : Sess} {r : Bool} (h : NInv u env bad x) {st : SStep} (hst : NarrowStep u st)
    (e : st.run u env x = some (r, x')) :
    ∃ bad', NInv u env bad' x' ∧ bad'.length ≤ failures bad.length [st] [r] := by
  cases st with
  | draw op =>
    obtain ⟨hop, hs, hm⟩ := hst
    simp only [SStep.run, Option.map_eq_some_iff] at e
    obtain ⟨b, e1, e2⟩ := e
    cases e2
    have hcol : 0 < x.s.buf.size.columns := h.held.grid.size.2.1
    exact ⟨bad, ⟨h.held.draw hT hop (safeOp_narrow hT hop hs hcol) hm e1, h.narrow,
      noWide_draw hT hop hs h.held.grid h.noWide e1, h.dlv⟩, Nat.le_refl _⟩
  | resized z cell cur =>
    obtain ⟨hz, hp⟩ := hst
    simp only [SStep.run, Option.map_eq_some_iff] at e
    obtain ⟨d, e1, e2⟩ := e
    cases e2
    have hsafe : SafeOp u x.s.buf (.resize z) := by
      refine ⟨hz.1, fun c cell _ _ hc hw => ?_⟩
      have := h.noWide cell (List.mem_of_getElem? hc)
      rw [isWide_iff.mpr hw] at this
      cases this
    obtain ⟨g1, g2⟩ := h.held.resized hT hz hsafe hp (cur := cur) e1
    refine ⟨[], ⟨?_, Or.inl g2, ?_, h.dlv⟩, Nat.zero_le _⟩
    · have : (fun j => j ∈ ([] : List Nat)) = fun _ => False := by
        funext j; simp
      rw [this]; exact g1
    · unfold SData.updateSize at e1
      cases e3 : x.s.buf.resize z with
      | none => rw [e3] at e1; cases e1
      | some b' =>
        rw [e3] at e1
        have e1 : _ = d := Option.some.inj e1
        subst e1
        refine resize_cells h.held.grid hz.1 e3 ?_ h.noWide
        exact not_wide_of_head_space hT.space rfl
  | refresh =>
    obtain ⟨hok, herr⟩ := refresh_sync hT.space hdb h.held h.stale (Or.inr ⟨h.narrow, h.noWide⟩)
    have hfine := fine_refresh (u := u) (env := env) (b := x.s.buf) (s := x.s)
      ⟨h.dlv, h.held.grid, rfl⟩
    simp only [SStep.run] at e
    cases e1 : x.s.refresh u env with
    | stop y => rw [e1] at e; cases e
    | ok s' =>
      rw [e1] at e hfine
      obtain ⟨new, t', l1, p1, a1, b1, n1⟩ := hok s' e1
      dsimp only at e
      rw [l1, drop_append_length, p1, Option.map_some, Option.some.injEq, Prod.mk.injEq] at e
      obtain ⟨rfl, rfl⟩ := e
      refine ⟨bad, ⟨a1.toHeld, Or.inr (n1 h.narrow h.noWide), ?_, hfine.dlv⟩, Nat.le_refl _⟩
      show NoWide u s'.buf
      rw [b1]; exact h.noWide
    | err e2 s' =>
      rw [e1] at e hfine
      obtain ⟨i, new, t', l1, p1, a1, c1, b1, n1⟩ := herr e2 s' e1
      dsimp only at e
      rw [l1, drop_append_length, p1, Option.map_some, Option.some.injEq, Prod.mk.injEq] at e
      obtain ⟨rfl, rfl⟩ := e
      refine ⟨i :: bad, ⟨?_, Or.inr (n1 h.narrow h.noWide), ?_, hfine.dlv⟩, Nat.le_refl _⟩
      · exact { a1.toBase.mono (fun j hj => by
            rcases hj with hj | hj
            · exact List.mem_cons_of_mem _ hj
            · rw [hj]; exact List.mem_cons_self ..) with cur := a1.cur, inval := a1.inval }
      · show NoWide u s'.buf
        rw [b1]; exact h.noWide

theorem failures_mono : ∀ (ss : List SStep) (rs : List Bool) (n m : Nat), n ≤ m →
    failures n ss rs ≤ failures m ss rs
  | [], rs, n, m, h => by cases rs <;> exact h
  | st :: ss, [], n, m, h => by cases st <;> exact h
  | .resized .. :: ss, r :: rs, n, m, _ => Nat.le_refl _
  | .draw _ :: ss, r :: rs, n, m, h => failures_mono ss rs _ _ (by cases r <;> simp <;> omega)
  | .refresh :: ss, r :: rs, n, m, h => failures_mono ss rs _ _ (by cases r <;> simp <;> omega)

theorem failures_cons (n : Nat) (st : SStep) (ss : List SStep) (r : Bool) (rs : List Bool) :
    failures n (st :: ss) (r :: rs) = failures (failures n [st] [r]) ss rs := by
  cases st <;> rfl

theorem ninv_run {u : UEnv} (hT : TableOk u) {env : WEnv} (hdb : DrawDB env) :
    ∀ (steps : List SStep) (bad : List Nat) (x y : Sess) (rs : List Bool), NInv u env bad x →
      (∀ st ∈ steps, NarrowStep u st) → runS u env steps x = some (rs, y) →
      ∃ bad', NInv u env bad' y ∧ bad'.length ≤ failures bad.length steps rs := by
  intro steps
  induction steps with
  | nil =>
    intro bad x y rs h _ e
    simp only [runS, Option.some.injEq, Prod.mk.injEq] at e
    obtain ⟨rfl, rfl⟩ := e
    exact ⟨bad, h, Nat.le_refl _⟩
  | cons st steps ih =>
    intro bad x y rs h hs e
    rw [runS] at e
    cases e1 : st.run u env x with
    | none => rw [e1] at e; cases e
    | some v =>
      obtain ⟨r, x'⟩ := v
      rw [e1] at e
      dsimp only at e
      rw [Option.map_eq_some_iff] at e
      obtain ⟨⟨l, y'⟩, e2, e3⟩ := e
      cases e3
      obtain ⟨bad1, h1, b1⟩ := h.step hT hdb (hs st (List.mem_cons_self ..)) e1
      obtain ⟨bad2, h2, b2⟩ := ih bad1 x' y' l h1 (fun s hs' => hs s (List.mem_cons_of_mem _ hs')) e2
      refine ⟨bad2, h2, ?_⟩
      rw [failures_cons]
      exact Nat.le_trans b2 (failures_mono _ _ _ _ b1)

/-! ## Sessions with two-column characters -/

/-- Between the steps of such a session. -/
structure WInv (u : UEnv) (env : WEnv) (x : Sess) : Prop where
  held : Held u (fun _ => False) x.s x.t
  whole : x.s.clear = false → ∀ p, InBounds p x.t.size → x.t.cell p ≠ .torn
  dlv : Delivered env x.s.w

theorem WInv.stale {u : UEnv} {env : WEnv} {x : Sess} (h : WInv u env x) (hr : NoReveal u x) :
    NoStale u (fun _ => False) x.s x.t := by
  intro hc j c hl _ hb hk
  have hlt : j < x.s.buf.size.lines * x.s.buf.size.columns := by
    rw [← h.held.grid.len]; exact (List.getElem?_eq_some_iff.mp hb).1
  have hin : InBounds (posOf x.s.buf.size j) x.s.buf.size :=
    (inBounds_posOf h.held.grid.size).mpr hlt
  rw [h.held.size]
  have hin' : InBounds (posOf x.s.buf.size j) x.t.size := by rw [h.held.size]; exact hin
  refine ⟨fun e => ?_, h.whole hc _ hin'⟩
  have hnr : ¬ RightHalf u x.s.buf (posOf x.s.buf.size j) :=
    (live_iff h.held.torn hin).mp (by rw [numOf_posOf']; exact hl)
  have := hr hc _ hin' e hnr
  rw [numOf_posOf'] at this
  apply this
  rw [hk, ← hb]
  show x.s.buf.buffer[numOf x.s.buf.size (posOf x.s.buf.size j)]? = _
  rw [numOf_posOf']

theorem After.whole {u : UEnv} (hu : SpaceOk u) {s : Scr} {t : Term}
    (h : After u (fun _ => False) s t) (p : Cursor) (hin : InBounds p t.size) : t.cell p ≠ .torn := by
  have hd := h.displays hu
  have hin' : InBounds p s.buf.size := by rw [← h.size]; exact hin
  have hlt : numOf s.buf.size p < s.buf.buffer.length := by
    rw [h.grid.len]; exact numOf_lt hin'
  have := hd.2 p _ hin' (List.getElem?_eq_getElem hlt)
  rw [this]
  split
  · intro e; cases e
  · unfold picture
    split <;> (intro e; cases e)

theorem WInv.step {u : UEnv} (hT : TableOk u) {env : WEnv} (hdb : DrawDB env)
    {x x' : Sess} (h : WInv u env x) {st : SStep} (hst : WideStep u x st)
    (e : st.run u env x = some (true, x')) : WInv u env x' := by
  cases st with
  | draw op =>
    obtain ⟨hop, hs, hm⟩ := hst
    simp only [SStep.run, Option.map_eq_some_iff] at e
    obtain ⟨b, e1, e2⟩ := e
    cases e2
    exact ⟨h.held.draw hT hop hs hm e1, h.whole, h.dlv⟩
  | resized z cell cur =>
    obtain ⟨hz, hs, hp⟩ := hst
    simp only [SStep.run, Option.map_eq_some_iff] at e
    obtain ⟨d, e1, e2⟩ := e
    cases e2
    obtain ⟨g1, g2⟩ := h.held.resized hT hz hs hp (cur := cur) e1
    refine ⟨g1, fun hc => ?_, h.dlv⟩
    have hc : d.clear = false := hc
    rw [g2] at hc; cases hc
  | refresh =>
    obtain ⟨hok, -⟩ := refresh_sync hT.space hdb h.held (h.stale hst) (Or.inl fun _ h => h)
    have hfine := fine_refresh (u := u) (env := env) (b := x.s.buf) (s := x.s)
      ⟨h.dlv, h.held.grid, rfl⟩
    simp only [SStep.run] at e
    cases e1 : x.s.refresh u env with
    | stop y => rw [e1] at e; cases e
    | err e2 s' =>
      rw [e1] at e
      dsimp only at e
      rw [Option.map_eq_some_iff] at e
      obtain ⟨_, _, e3⟩ := e
      cases e3
    | ok s' =>
      rw [e1] at e hfine
      obtain ⟨new, t', l1, p1, a1, b1, n1⟩ := hok s' e1
      dsimp only at e
      rw [l1, drop_append_length, p1, Option.map_some, Option.some.injEq, Prod.mk.injEq] at e
      obtain ⟨-, rfl⟩ := e
      exact ⟨a1.toHeld, fun _ p hp => a1.whole hT.space p hp, hfine.dlv⟩

theorem winv_run {u : UEnv} (hT : TableOk u) {env : WEnv} (hdb : DrawDB env) :
    ∀ (steps : List SStep) (x y : Sess) (rs : List Bool), WInv u env x →
      WideRun u env x steps → runS u env steps x = some (rs, y) → (∀ r ∈ rs, r = true) →
      WInv u env y := by
  intro steps
  induction steps with
  | nil =>
    intro x y rs h _ e _
    simp only [runS, Option.some.injEq, Prod.mk.injEq] at e
    obtain ⟨rfl, rfl⟩ := e
    exact h
  | cons st steps ih =>
    intro x y rs h hs e hr
    rw [runS] at e
    cases e1 : st.run u env x with
    | none => rw [e1] at e; cases e
    | some v =>
      obtain ⟨r, x'⟩ := v
      rw [e1] at e
      dsimp only at e
      rw [Option.map_eq_some_iff] at e
      obtain ⟨⟨l, y'⟩, e2, e3⟩ := e
      cases e3
      have hr1 : r = true := hr r (List.mem_cons_self ..)
      subst hr1
      exact ih x' y' l (h.step hT hdb hs.1 e1) (hs.2 _ _ e1) e2
        (fun r' h' => hr r' (List.mem_cons_of_mem _ h'))

end Mortal
