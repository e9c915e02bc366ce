import Verif.Lemmas.Buffer

/-! # Writing plain text; histories -/

namespace Mortal
open Spec

theorem ix_eq (b : Buf) : b.ix = numOf b.size b.cursor := rfl

theorem drawn_of_plain {env : UEnv} {ch : Char} (h : Plain env ch) : Drawn env ch := by
  have := h.ctl
  simp only [List.mem_cons, List.not_mem_nil, or_false, not_or] at this
  exact ⟨this.1, this.2.1, this.2.2, h.comb, by simp [UEnv.w, h.width]⟩

theorem w_plain {env : UEnv} {ch : Char} (h : Plain env ch) : env.w ch = 1 := by
  simp [UEnv.w, h.width]

theorem drawn_of_wide {env : UEnv} {ch : Char} (h : Wide env ch) : Drawn env ch := by
  have := h.ctl
  simp only [List.mem_cons, List.not_mem_nil, or_false, not_or] at this
  exact ⟨this.1, this.2.1, this.2.2, h.comb, by simp [UEnv.w, h.width]⟩

theorem w_wide {env : UEnv} {ch : Char} (h : Wide env ch) : env.w ch = 2 := by
  simp [UEnv.w, h.width]

theorem writeChar_eq_NT {env : UEnv} {b : Buf} {ch : Char} (h : ch ≠ '\t') :
    b.writeChar env ch = b.writeCharNT env ch := by
  unfold Buf.writeChar; rw [if_neg h]

theorem posOf_numOf {s : Size} {c : Cursor} (h : InBounds c s) : posOf s (numOf s c) = c := by
  unfold posOf numOf
  have h2 := h.2
  have hpos : 0 < s.columns := by omega
  rw [Nat.mul_comm, Nat.mul_add_div hpos, Nat.mul_add_mod, Nat.div_eq_of_lt h2,
    Nat.mod_eq_of_lt h2, Nat.add_zero]

theorem numOf_posOf {s : Size} (i : Nat) : numOf s (posOf s i) = i := by
  unfold posOf numOf
  simp only
  rw [Nat.mul_comm]; exact Nat.div_add_mod i s.columns

theorem inBounds_posOf {s : Size} (hs : GoodSize s) {i : Nat} :
    InBounds (posOf s i) s ↔ i < s.lines * s.columns := by
  unfold InBounds posOf
  constructor
  · rintro ⟨h, _⟩
    exact (Nat.div_lt_iff_lt_mul hs.2.1).mp h
  · intro h
    exact ⟨(Nat.div_lt_iff_lt_mul hs.2.1).mpr h, Nat.mod_lt _ hs.2.1⟩

theorem numOf_lt {s : Size} {c : Cursor} (h : InBounds c s) : numOf s c < s.lines * s.columns :=
  asIndex_lt h

/-- Advancing by `w` columns within a line moves the number by `w`. -/
theorem advance_eq {s : Size} {c : Cursor} {w : Nat} (hs : GoodSize s)
    (hw : c.column + w ≤ s.columns) : advance s c w = posOf s (numOf s c + w) := by
  unfold advance posOf numOf
  have hpos := hs.2.1
  have e : c.line * s.columns + c.column + w = s.columns * c.line + (c.column + w) := by
    rw [Nat.mul_comm]; omega
  rw [e, Nat.mul_add_div hpos, Nat.mul_add_mod]
  by_cases h : s.columns ≤ c.column + w
  · have h' : c.column + w = s.columns := by omega
    rw [if_pos (by omega), h', Nat.div_self hpos, Nat.mod_self]
  · rw [if_neg (by omega), Nat.div_eq_of_lt (by omega), Nat.mod_eq_of_lt (by omega), Nat.add_zero]

theorem isWide_iff {env : UEnv} {c : Cell} : c.isWide env = true ↔ HoldsWide env c := by
  unfold Cell.isWide HoldsWide UEnv.w
  cases h : c.text with
  | nil => simp
  | cons ch rest =>
    simp only [List.head?_cons, beq_iff_eq, List.cons.injEq]
    constructor
    · intro h1
      refine ⟨ch, rest, ⟨rfl, rfl⟩, ?_⟩
      cases hw : env.width ch with
      | none => simp [hw] at h1
      | some w => simp [hw] at h1; rw [h1]
    · rintro ⟨_, _, ⟨rfl, rfl⟩, h2⟩
      simp [h2]

instance (env : UEnv) (c : Cell) : Decidable (HoldsWide env c) :=
  decidable_of_iff _ isWide_iff

/-- The cells after writing plain text of length `m` that fits, starting at number `p`. -/
def plainCells (env : UEnv) (b : Buf) (p : Nat) (text : List Char) (i : Nat) : Option Cell :=
  if p ≤ i ∧ i < p + text.length then text[i - p]?.map b.cellOf
  else if text ≠ [] ∧ i + 1 = p then
    b.buffer[i]?.map fun c => if c.isWide env then Cell.default else c
  else b.buffer[i]?

theorem cellOf_not_wide {env : UEnv} {b : Buf} {ch : Char} (h : Plain env ch) :
    (b.cellOf ch).isWide env = false := by
  simp [Cell.isWide, w_plain h]

/-- One plain character. -/
theorem writeChar_plain {env : UEnv} {b : Buf} (h : b.Inv) {ch : Char} (hp : Plain env ch)
    (hc : InBounds b.cursor b.size) :
    ∃ b', b.writeChar env ch = some (b', .ok) ∧ b'.Inv ∧ SameFrame b b' ∧
      b'.cursor = posOf b.size (numOf b.size b.cursor + 1) ∧
      ∀ i, b'.buffer[i]? = plainCells env b (numOf b.size b.cursor) [ch] i := by
  have hd := drawn_of_plain hp
  have hw := w_plain hp
  have hcol := hc.2
  rw [writeChar_eq_NT hd.tab]
  obtain ⟨b', r, e, st⟩ := writeCharNT_total (env := env) (ch := ch) h hd.tab
    (by rw [hw]; omega) (fun hh => absurd hh hd.lf)
  rw [writeCharNT_fit h hd hc (by rw [hw]; omega)] at e ⊢
  rw [Option.some.injEq, Prod.mk.injEq] at e
  obtain ⟨rfl, rfl⟩ := e
  refine ⟨_, rfl, st.inv, st.frame, ?_, ?_⟩
  · rw [hw, advance_eq h.size (by omega)]
  · intro i
    have hlt : b.ix < (tear env b.ix b.buffer).length := by
      rw [tear_length, h.len]; exact numOf_lt hc
    simp only
    rw [hw, placed_get _ _ _ _ _ hlt, tear_get]
    unfold plainCells
    rw [ix_eq] at *
    simp only [List.length_singleton]
    by_cases h1 : i = numOf b.size b.cursor
    · rw [if_pos h1, if_pos (by omega), h1]; simp
    · rw [if_neg h1, if_neg (by omega), if_neg (by omega)]
      by_cases h2 : i + 1 = numOf b.size b.cursor
      · rw [if_pos (by simpa using h2)]; simp [h2]
      · rw [if_neg (by simpa using h2)]; simp [h2]

theorem writeStr_cons {env : UEnv} {b b' : Buf} {ch : Char} {s : List Char}
    (h : b.writeChar env ch = some (b', .ok)) :
    b.writeStr env (ch :: s) = b'.writeStr env s := by
  rw [Buf.writeStr, h]; rfl

theorem writeStr_cons_oob {env : UEnv} {b b' : Buf} {ch : Char} {s : List Char}
    (h : b.writeChar env ch = some (b', .oob)) :
    b.writeStr env (ch :: s) = some (b', .oob) := by
  rw [Buf.writeStr, h]; rfl

theorem cellOf_frame {b b' : Buf} (h : SameFrame b b') : b'.cellOf = b.cellOf := by
  funext ch
  obtain ⟨_, _, h3, h4, h5⟩ := h
  simp [Buf.cellOf, h3, h4, h5]

theorem SameFrame.refl (b : Buf) : SameFrame b b := ⟨rfl, rfl, rfl, rfl, rfl⟩

theorem SameFrame.trans {a b c : Buf} (h1 : SameFrame a b) (h2 : SameFrame b c) :
    SameFrame a c := by
  obtain ⟨s1, s2, s3, s4, s5⟩ := h1
  obtain ⟨t1, t2, t3, t4, t5⟩ := h2
  exact ⟨t1.trans s1, t2.trans s2, t3.trans s3, t4.trans s4, t5.trans s5⟩

/-- Plain text that fits. -/
theorem writeStr_plain {env : UEnv} (text : List Char) {b : Buf} (h : b.Inv) {p : Nat}
    (hcur : b.cursor = posOf b.size p) (hp : ∀ ch ∈ text, Plain env ch)
    (hfit : p + text.length ≤ b.size.lines * b.size.columns) :
    ∃ b', b.writeStr env text = some (b', .ok) ∧ b'.Inv ∧ SameFrame b b' ∧
      b'.cursor = posOf b.size (p + text.length) ∧
      ∀ i, b'.buffer[i]? = plainCells env b p text i := by
  induction text generalizing b p with
  | nil =>
    refine ⟨b, rfl, h, SameFrame.refl b, hcur, fun i => ?_⟩
    unfold plainCells
    rw [if_neg (by simp only [List.length_nil]; omega), if_neg (by simp)]
  | cons ch text ih =>
    have hch := hp ch (List.mem_cons_self ..)
    rw [List.length_cons] at hfit
    have hin : InBounds b.cursor b.size := by
      rw [hcur, inBounds_posOf h.size]; omega
    have hnum : numOf b.size b.cursor = p := by rw [hcur, numOf_posOf]
    obtain ⟨b1, e1, i1, f1, c1, g1⟩ := writeChar_plain h hch hin
    rw [hnum] at c1 g1
    have hs1 := f1.1
    obtain ⟨b2, e2, i2, f2, c2, g2⟩ := ih (b := b1) (p := p + 1) i1 (by rw [c1, hs1])
      (fun c hc => hp c (List.mem_cons_of_mem _ hc)) (by rw [hs1]; omega)
    refine ⟨b2, (writeStr_cons e1).trans e2, i2, SameFrame.trans f1 f2, ?_, ?_⟩
    · rw [c2, hs1]; congr 1; simp; omega
    · intro i
      rw [g2 i]
      unfold plainCells
      have g1i := g1 i
      unfold plainCells at g1i
      rw [cellOf_frame f1]
      simp only [List.length_cons, List.length_nil] at g1i ⊢
      by_cases h1 : p + 1 ≤ i ∧ i < p + 1 + text.length
      · rw [if_pos h1, if_pos (by omega)]
        obtain ⟨k, rfl⟩ : ∃ k, i = p + 1 + k := ⟨i - (p + 1), by omega⟩
        rw [show p + 1 + k - p = k + 1 by omega, show p + 1 + k - (p + 1) = k by omega]
        simp
      · rw [if_neg h1]
        by_cases h2 : i = p
        · subst h2
          rw [if_pos (by omega)] at g1i
          have hnw := cellOf_not_wide (b := b) hch
          have hr : i ≤ i ∧ i < i + (text.length + 1) := by omega
          rw [if_pos hr, g1i]
          by_cases h3 : text = []
          · rw [if_neg (by simp [h3])]; simp
          · rw [if_pos ⟨h3, rfl⟩]; simp [hnw]
        · rw [if_neg (by omega)] at g1i
          have hr : ¬ (p ≤ i ∧ i < p + (text.length + 1)) := by omega
          rw [if_neg hr, g1i, if_neg (show ¬ (text ≠ [] ∧ i + 1 = p + 1) by omega)]
          by_cases h3 : i + 1 = p
          · rw [if_pos (by simpa using h3), if_pos (by simpa using h3)]
          · rw [if_neg (by simpa using h3), if_neg (by simpa using h3)]

/-- Drawn text with the cursor outside the screen: nothing happens. -/
theorem writeStr_oob_plain {env : UEnv} {b : Buf} {ch : Char} {s : List Char}
    (hc : ¬ InBounds b.cursor b.size) (h : Drawn env ch) :
    b.writeStr env (ch :: s) = some (b, .oob) :=
  writeStr_cons_oob (by rw [writeChar_eq_NT h.tab]; exact writeCharNT_oob h hc)

theorem writeStr_append_ok {env : UEnv} {s t : List Char} {b b' : Buf}
    (h : b.writeStr env s = some (b', .ok)) : b.writeStr env (s ++ t) = b'.writeStr env t := by
  induction s generalizing b with
  | nil =>
    rw [Buf.writeStr, Option.some.injEq, Prod.mk.injEq] at h
    rw [h.1]; rfl
  | cons ch s ih =>
    cases e : b.writeChar env ch with
    | none => rw [Buf.writeStr, e] at h; cases h
    | some x =>
      obtain ⟨b1, r⟩ := x
      cases r with
      | ok =>
        rw [List.cons_append, writeStr_cons e]
        rw [writeStr_cons e] at h
        exact ih h
      | oob => rw [writeStr_cons_oob e] at h; cases h

/-- The closed form of a tab. -/
theorem tabLoop_eq (env : UEnv) (n : Nat) (b : Buf) :
    Buf.tabLoop env n b = b.writeStr env (List.replicate n ' ') := by
  induction n generalizing b with
  | zero => rfl
  | succ n ih =>
    rw [Buf.tabLoop, List.replicate_succ, Buf.writeStr, writeChar_eq_NT (by decide)]
    congr 1
    funext x
    obtain ⟨b1, r⟩ := x
    cases r with
    | ok => exact ih b1
    | oob => rfl

theorem plain_space {env : UEnv} (h : SpaceOk env) : Plain env ' ' :=
  ⟨h.width, h.comb, by decide⟩

/-! ## Histories -/

/-- One call, from a good state. -/
theorem op_total {env : UEnv} (henv : SpaceOk env) {b : Buf} (h : b.Inv) (op : BufOp)
    (hres : ∀ s, op = .resize s → GoodSize s)
    (hw : ∀ ch ∈ opText op, env.w ch ≤ b.size.columns)
    (hl : max (max b.cursor.line b.size.lines) (opLine op) + opNewlines op ≤ usizeMax) :
    ∃ b', op.run env b = some b' ∧ b'.Inv ∧ (b'.size = b.size ∨ op = .resize b'.size) ∧
      b'.cursor.line ≤ max (max b.cursor.line b.size.lines) (opLine op) + opNewlines op := by
  have str : ∀ (b : Buf) (s : List Char) (M : Nat), b.Inv →
      (∀ ch ∈ s, env.w ch ≤ b.size.columns) → max b.cursor.line b.size.lines ≤ M →
      M + s.count '\n' ≤ usizeMax →
      ∃ b' r, b.writeStr env s = some (b', r) ∧ b'.Inv ∧ b'.size = b.size ∧
        b'.cursor.line ≤ M + s.count '\n' := by
    intro b s M hb hw hM hl
    obtain ⟨b', r, e, st⟩ := writeStr_total henv s hb hw (by omega)
    exact ⟨b', r, e, st.inv, st.frame.1, by have := st.line; omega⟩
  cases op with
  | setCursor c =>
    exact ⟨_, rfl, ⟨h.size, h.len, h.backLen, h.text⟩, Or.inl rfl, by
      simp only [Buf.setCursor, opLine]; omega⟩
  | nextLine c =>
    simp only [opNewlines] at hl ⊢
    unfold BufOp.run Buf.nextLine uadd
    rw [if_pos (by omega)]
    exact ⟨_, rfl, ⟨h.size, h.len, h.backLen, h.text⟩, Or.inl rfl, by simp; omega⟩
  | clearScreen =>
    refine ⟨_, rfl, ⟨h.size, ?_, h.backLen, ?_⟩, Or.inl rfl, by simp only [Buf.clearScreen]; omega⟩
    · simp only [Buf.clearScreen, List.length_map]; exact h.len
    · intro c hc
      simp only [Buf.clearScreen, List.mem_map] at hc
      obtain ⟨_, _, rfl⟩ := hc
      simp [Cell.default]
  | clearAttributes =>
    exact ⟨_, rfl, ⟨h.size, h.len, h.backLen, h.text⟩, Or.inl rfl, by
      simp only [Buf.clearAttributes]; omega⟩
  | addStyle s =>
    exact ⟨_, rfl, ⟨h.size, h.len, h.backLen, h.text⟩, Or.inl rfl, by simp only [Buf.addStyle]; omega⟩
  | removeStyle s =>
    exact ⟨_, rfl, ⟨h.size, h.len, h.backLen, h.text⟩, Or.inl rfl, by
      simp only [Buf.removeStyle]; omega⟩
  | setStyle s =>
    exact ⟨_, rfl, ⟨h.size, h.len, h.backLen, h.text⟩, Or.inl rfl, by simp only [Buf.setStyle]; omega⟩
  | setFg s =>
    exact ⟨_, rfl, ⟨h.size, h.len, h.backLen, h.text⟩, Or.inl rfl, by simp only [Buf.setFg]; omega⟩
  | setBg s =>
    exact ⟨_, rfl, ⟨h.size, h.len, h.backLen, h.text⟩, Or.inl rfl, by simp only [Buf.setBg]; omega⟩
  | setTheme t =>
    exact ⟨_, rfl, ⟨h.size, h.len, h.backLen, h.text⟩, Or.inl rfl, by
      simp only [Buf.setTheme, Buf.setFg, Buf.setBg, Buf.setStyle]; omega⟩
  | writeChar ch =>
    simp only [opNewlines, opText] at hl hw ⊢
    obtain ⟨b', r, e, st⟩ := writeChar_total henv (ch := ch) h (hw ch (by simp))
      (by rintro rfl; simp at hl; omega)
    refine ⟨b', by simp [BufOp.run, e], st.inv, Or.inl st.frame.1, ?_⟩
    have := st.line
    by_cases hc : ch = '\n'
    · subst hc; simp at this ⊢; omega
    · simp [hc] at this ⊢; omega
  | writeStr s =>
    simp only [opNewlines, opText] at hl hw ⊢
    obtain ⟨b', r, e, hi, hs, hln⟩ := str b s _ h hw (Nat.le_max_left ..) hl
    exact ⟨b', by simp [BufOp.run, e], hi, Or.inl hs, hln⟩
  | writeAt pos s =>
    simp only [opNewlines, opText, opLine] at hl hw ⊢
    simp only [BufOp.run]
    unfold Buf.writeAt
    by_cases hp : InBounds pos b.size
    · rw [tryCursorAt_ok.mpr hp]
      obtain ⟨b', r, e, hi, hs, hln⟩ := str { b with cursor := pos } s
        (max (max b.cursor.line b.size.lines) pos.line)
        ⟨h.size, h.len, h.backLen, h.text⟩ hw (by simp only; omega) hl
      exact ⟨b', by simp [e], hi, Or.inl hs, hln⟩
    · rw [tryCursorAt_oob.mpr hp]
      exact ⟨b, rfl, h, Or.inl rfl, by omega⟩
  | writeStyled fg bg st s =>
    simp only [opNewlines, opText] at hl hw ⊢
    simp only [BufOp.run]
    unfold Buf.writeStyled
    obtain ⟨b', r, e, hi, hs, hln⟩ := str { b with fg := fg, bg := bg, style := st } s _
      ⟨h.size, h.len, h.backLen, h.text⟩ hw (Nat.le_max_left ..) hl
    rw [e]
    cases r with
    | ok => exact ⟨_, rfl, ⟨hi.size, hi.len, hi.backLen, hi.text⟩, Or.inl hs, hln⟩
    | oob => exact ⟨_, rfl, hi, Or.inl hs, hln⟩
  | writeStyledAt pos fg bg st s =>
    simp only [opNewlines, opText, opLine] at hl hw ⊢
    simp only [BufOp.run]
    unfold Buf.writeStyledAt Buf.writeStyled
    by_cases hp : InBounds pos b.size
    · rw [tryCursorAt_ok.mpr hp]
      obtain ⟨b', r, e, hi, hs, hln⟩ := str { b with cursor := pos, fg := fg, bg := bg, style := st }
        s (max (max b.cursor.line b.size.lines) pos.line)
        ⟨h.size, h.len, h.backLen, h.text⟩ hw (by simp only; omega) hl
      simp only at e ⊢
      rw [e]
      cases r with
      | ok => exact ⟨_, rfl, ⟨hi.size, hi.len, hi.backLen, hi.text⟩, Or.inl hs, hln⟩
      | oob => exact ⟨_, rfl, hi, Or.inl hs, hln⟩
    · rw [tryCursorAt_oob.mpr hp]
      exact ⟨b, rfl, h, Or.inl rfl, by omega⟩
  | resize s =>
    obtain ⟨b', e, hi, hs, hc, _⟩ := resize_inv h (hres s rfl)
    exact ⟨b', e, hi, Or.inr (by rw [hs]), by rw [hc]; omega⟩

theorem new_inv {s : Size} (h : GoodSize s) : (Buf.new s).Inv :=
  ⟨h, by simp [Buf.new, Size.area], by simp [Buf.new, Size.area], by
    intro c hc
    simp only [Buf.new] at hc
    rw [List.eq_of_mem_replicate hc]
    simp [Cell.default]⟩

theorem runOps_total {env : UEnv} (henv : SpaceOk env) (ops : List BufOp) {b : Buf} (h : b.Inv)
    (hres : ∀ s, .resize s ∈ ops → GoodSize s)
    (hw : ∀ op ∈ ops, ∀ ch ∈ opText op, env.w ch ≤ b.size.columns ∧
      ∀ s, .resize s ∈ ops → env.w ch ≤ s.columns)
    (L : Nat) (hL1 : b.cursor.line ≤ L) (hL2 : b.size.lines ≤ L) (hL3 : ∀ op ∈ ops, opLine op ≤ L)
    (hmax : L + (ops.map opNewlines).sum ≤ usizeMax) :
    ∃ b', runOps env ops b = some b' ∧ b'.Inv := by
  induction ops generalizing b L with
  | nil => exact ⟨b, rfl, h⟩
  | cons op ops ih =>
    rw [List.map_cons, List.sum_cons] at hmax
    have hop := hL3 op (List.mem_cons_self ..)
    obtain ⟨b1, e1, h1, hs1, hl1⟩ := op_total henv h op
      (fun s hs => hres s (hs ▸ List.mem_cons_self ..))
      (fun ch hch => (hw op (List.mem_cons_self ..) ch hch).1) (by omega)
    rw [runOps, e1]
    have hsz : b1.size.lines ≤ L := by
      rcases hs1 with hs | hs
      · rw [hs]; exact hL2
      · have := hL3 op (List.mem_cons_self ..)
        rw [hs] at this; exact this
    refine ih h1 (fun s hs => hres s (List.mem_cons_of_mem _ hs)) ?_ (L + opNewlines op)
      (by omega) (by omega)
      (fun o ho => Nat.le_trans (hL3 o (List.mem_cons_of_mem _ ho)) (by omega)) (by omega)
    intro o ho ch hch
    obtain ⟨ha, hb⟩ := hw o (List.mem_cons_of_mem _ ho) ch hch
    refine ⟨?_, fun s hs => hb s (List.mem_cons_of_mem _ hs)⟩
    rcases hs1 with hs | hs
    · rw [hs]; exact ha
    · exact hb _ (hs ▸ List.mem_cons_self ..)

end Mortal
