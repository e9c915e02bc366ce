import Verif.Lemmas.BufferText

/-! # Two-column characters -/

namespace Mortal
open Spec

/-- Cell-level effect of a drawn character that fits. -/
theorem writeChar_fit_cells {env : UEnv} {b : Buf} (h : b.Inv) {ch : Char} (hd : Drawn env ch)
    (hc : InBounds b.cursor b.size) (hfit : b.cursor.column + env.w ch ≤ b.size.columns) :
    ∃ b', b.writeChar env ch = some (b', .ok) ∧ b'.Inv ∧ SameFrame b b' ∧
      b'.cursor = advance b.size b.cursor (env.w ch) ∧
      ∀ i, b'.buffer[i]? = if i = b.ix then some (b.cellOf ch)
        else if b.ix < i ∧ i < b.ix + env.w ch then some (b.cellOf ' ')
        else b.buffer[i]?.map fun c =>
          if i + 1 = b.ix ∧ c.isWide env = true then Cell.default else c := by
  rw [writeChar_eq_NT hd.tab]
  obtain ⟨b', r, e, st⟩ := writeCharNT_total (env := env) (ch := ch) h hd.tab
    (by omega) (fun hh => absurd hh hd.lf)
  rw [writeCharNT_fit h hd hc hfit] at e ⊢
  rw [Option.some.injEq, Prod.mk.injEq] at e
  obtain ⟨rfl, rfl⟩ := e
  refine ⟨_, rfl, st.inv, st.frame, rfl, fun i => ?_⟩
  have hlen : (tear env b.ix b.buffer).length = b.size.lines * b.size.columns := by
    rw [tear_length, h.len]
  have hlt : b.ix < (tear env b.ix b.buffer).length := by
    rw [hlen]; exact numOf_lt hc
  have hend : b.ix + env.w ch ≤ b.size.lines * b.size.columns := by
    have h1 : (b.cursor.line + 1) * b.size.columns ≤ b.size.lines * b.size.columns :=
      Nat.mul_le_mul_right _ hc.1
    rw [Nat.add_mul] at h1
    rw [ix_eq]; unfold numOf
    omega
  simp only
  rw [placed_get _ _ _ _ _ hlt, tear_get, hlen]
  by_cases h1 : i = b.ix
  · rw [if_pos h1, if_pos h1]
  · rw [if_neg h1, if_neg h1]
    by_cases h2 : b.ix < i ∧ i < b.ix + env.w ch
    · rw [if_pos h2, if_pos (by omega)]
    · rw [if_neg h2, if_neg (by omega)]

/-- Index form of `NoTorn`. -/
def NoTornIx (env : UEnv) (cols : Nat) (l : List Cell) : Prop :=
  ∀ i cell, l[i]? = some cell → cell.isWide env = true →
    i % cols + 1 < cols ∧ ∃ nxt, l[i + 1]? = some nxt ∧ nxt.text.head? = some ' '

theorem noTorn_iff {env : UEnv} {b : Buf} (h : b.Inv) :
    NoTorn env b ↔ NoTornIx env b.size.columns b.buffer := by
  constructor
  · intro hn i cell hi hwd
    have hlt : i < b.size.lines * b.size.columns := by
      rw [← h.len]; exact (List.getElem?_eq_some_iff.mp hi).1
    have hin := (inBounds_posOf (s := b.size) h.size (i := i)).mpr hlt
    have hcell : cellAt b (posOf b.size i) = some cell := by
      unfold cellAt
      rw [← hi]; congr 1; exact numOf_posOf i
    obtain ⟨h1, nxt, h2, h3⟩ := hn _ cell hin hcell (isWide_iff.mp hwd)
    refine ⟨h1, nxt, ?_, h3⟩
    rw [← h2]
    unfold cellAt
    congr 1
    have := numOf_posOf (s := b.size) i
    unfold numOf at this
    simp only
    omega
  · intro hn c cell hin hcell hwd
    obtain ⟨h1, nxt, h2, h3⟩ := hn (numOf b.size c) cell hcell (isWide_iff.mpr hwd)
    have hm : numOf b.size c % b.size.columns = c.column := by
      unfold numOf
      rw [Nat.mul_comm, Nat.mul_add_mod, Nat.mod_eq_of_lt hin.2]
    rw [hm] at h1
    refine ⟨h1, nxt, ?_, h3⟩
    rw [← h2]; rfl

theorem not_wide_of_head_space {env : UEnv} (henv : SpaceOk env) {c : Cell}
    (h : c.text.head? = some ' ') : c.isWide env = false := by
  unfold Cell.isWide; rw [h]; simp [w_space henv]

theorem noTornIx_mark {env : UEnv} {cols : Nat} {l : List Cell} (hl : ∀ c ∈ l, c.text ≠ [])
    (h : NoTornIx env cols l) (k : Nat) (ch : Char) : NoTornIx env cols (l.modify k (addMark ch)) := by
  have head : ∀ (c : Cell), c.text ≠ [] → (addMark ch c).text.head? = c.text.head? := by
    intro c hc
    unfold addMark
    cases hx : c.text with
    | nil => exact absurd hx hc
    | cons => rfl
  have get : ∀ (i : Nat) (c : Cell), (l.modify k (addMark ch))[i]? = some c →
      ∃ c0 : Cell, l[i]? = some c0 ∧ c.text.head? = c0.text.head? := by
    intro i c hi
    rw [List.getElem?_modify, Option.map_eq_map, Option.map_eq_some_iff] at hi
    obtain ⟨c0, h0, rfl⟩ := hi
    refine ⟨c0, h0, ?_⟩
    split
    · exact head c0 (hl c0 (List.mem_of_getElem? h0))
    · rfl
  intro i cell hi hwd
  obtain ⟨c0, h0, hh⟩ := get i cell hi
  have : c0.isWide env = true := by unfold Cell.isWide at hwd ⊢; rw [← hh]; exact hwd
  obtain ⟨g1, nxt, g2, g3⟩ := h i c0 h0 this
  refine ⟨g1, if k = i + 1 then addMark ch nxt else nxt, ?_, ?_⟩
  · rw [List.getElem?_modify, g2]
    simp only [Option.map_eq_map, Option.map_some]
  · split
    · rw [head nxt (hl nxt (List.mem_of_getElem? g2))]; exact g3
    · exact g3

/-- A drawn character that fits keeps the right halves right. -/
theorem noTornIx_fit {env : UEnv} (henv : SpaceOk env) {b b' : Buf} {ch : Char}
    (h : NoTornIx env b.size.columns b.buffer) (hin : InBounds b.cursor b.size)
    (hfit : b.cursor.column + env.w ch ≤ b.size.columns)
    (g : ∀ i, b'.buffer[i]? = if i = b.ix then some (b.cellOf ch)
        else if b.ix < i ∧ i < b.ix + env.w ch then some (b.cellOf ' ')
        else b.buffer[i]?.map fun c =>
          if i + 1 = b.ix ∧ c.isWide env = true then Cell.default else c) :
    NoTornIx env b.size.columns b'.buffer := by
  intro i cell hi hwd
  rw [g i] at hi
  split at hi
  · next h1 =>
    obtain rfl := Option.some.inj hi
    have hw2 : env.w ch = 2 := by simpa [Cell.isWide] using hwd
    subst h1
    refine ⟨?_, b.cellOf ' ', ?_, rfl⟩
    · rw [ix_eq]; unfold numOf
      rw [Nat.mul_comm, Nat.mul_add_mod, Nat.mod_eq_of_lt hin.2]; omega
    · rw [g, if_neg (by omega), if_pos (by omega)]
  · split at hi
    · obtain rfl := Option.some.inj hi
      simp [Cell.isWide, w_space henv] at hwd
    · next h1 h2 =>
      obtain ⟨c0, h0, rfl⟩ := Option.map_eq_some_iff.mp hi
      by_cases h3 : i + 1 = b.ix ∧ c0.isWide env = true
      · rw [if_pos h3] at hwd
        simp [Cell.isWide, Cell.default, w_space henv] at hwd
      · rw [if_neg h3] at hwd
        obtain ⟨g1, nxt, g2, g3⟩ := h i c0 h0 hwd
        have hne : i + 1 ≠ b.ix := fun hh => h3 ⟨hh, hwd⟩
        refine ⟨g1, nxt, ?_, g3⟩
        rw [g, if_neg hne, if_neg (by omega), g2]
        simp [not_wide_of_head_space henv g3]

theorem noTornIx_setRange {env : UEnv} {cols : Nat} {l : List Cell}
    (h : NoTornIx env cols l) {x : Cell} (hx : x.isWide env = false) (p n : Nat)
    (hp : ∀ c, 0 < p → l[p - 1]? = some c → c.isWide env = false) :
    NoTornIx env cols (setRange x p n l) := by
  intro i cell hi hwd
  rw [setRange_get] at hi
  split at hi
  · obtain rfl := Option.some.inj hi
    rw [hx] at hwd; cases hwd
  · next h1 =>
    obtain ⟨g1, nxt, g2, g3⟩ := h i cell hi hwd
    refine ⟨g1, nxt, ?_, g3⟩
    rw [setRange_get, if_neg, g2]
    rintro ⟨h2, h3, h4⟩
    by_cases h5 : i + 1 = p
    · have := hp cell (by omega) (by rw [← h5]; exact hi)
      rw [this] at hwd; cases hwd
    · exact h1 ⟨by omega, by omega, by omega⟩

theorem noTornIx_tear {env : UEnv} (henv : SpaceOk env) {cols : Nat} {l : List Cell}
    (h : NoTornIx env cols l) (p : Nat) : NoTornIx env cols (tear env p l) := by
  intro i cell hi hwd
  rw [tear_get] at hi
  obtain ⟨c0, h0, rfl⟩ := Option.map_eq_some_iff.mp hi
  by_cases h3 : i + 1 = p ∧ c0.isWide env = true
  · rw [if_pos h3] at hwd
    simp [Cell.isWide, Cell.default, w_space henv] at hwd
  · rw [if_neg h3] at hwd
    obtain ⟨g1, nxt, g2, g3⟩ := h i c0 h0 hwd
    refine ⟨g1, nxt, ?_, g3⟩
    rw [tear_get, g2]
    simp [not_wide_of_head_space henv g3]

/-- Writing a character with `SafeText`'s proviso preserves `NoTorn`. -/
theorem noTorn_writeCharNT {env : UEnv} (henv : SpaceOk env) {b b' : Buf} {r : WRes} {ch : Char}
    (ht : ch ≠ '\t') (h : b.Inv) (hn : NoTornIx env b.size.columns b.buffer)
    (hw : env.w ch ≤ b.size.columns)
    (hsafe : ¬ (env.w ch = 2 ∧ InBounds b.cursor b.size ∧ b.size.columns < b.cursor.column + 2))
    (e : b.writeCharNT env ch = some (b', r)) :
    NoTornIx env b'.size.columns b'.buffer := by
  rcases char_cases env ch ht with rfl | rfl | hm | hd | ⟨h1, h2, h3⟩
  · unfold Buf.writeCharNT at e
    rw [if_pos rfl, Option.some.injEq, Prod.mk.injEq] at e
    obtain ⟨rfl, rfl⟩ := e
    exact hn
  · unfold Buf.writeCharNT uadd at e
    rw [if_neg (by decide), if_pos rfl] at e
    split at e
    · simp at e
      obtain ⟨rfl, rfl⟩ := e
      exact hn
    · cases e
  · rcases writeCharNT_comb h hm with ⟨_, e1⟩ | ⟨d, _, _, e1⟩ | ⟨d, _, _, e1⟩
    all_goals
      rw [e1, Option.some.injEq, Prod.mk.injEq] at e
      obtain ⟨rfl, rfl⟩ := e
    · exact hn
    · exact noTornIx_mark h.text hn _ _
    · exact hn
  · by_cases hin : InBounds b.cursor b.size
    · by_cases hfit : b.cursor.column + env.w ch ≤ b.size.columns
      · obtain ⟨b1, e1, _, f1, _, g1⟩ := writeChar_fit_cells h hd hin hfit
        rw [writeChar_eq_NT ht, e, Option.some.injEq, Prod.mk.injEq] at e1
        obtain ⟨rfl, rfl⟩ := e1
        rw [f1.1]
        exact noTornIx_fit henv hn hin hfit g1
      · have hne : env.w ch ≠ 2 := fun hh => hsafe ⟨hh, hin, by omega⟩
        have hx : ∀ a : Buf, (a.cellOf ch).isWide env = false := by
          intro a; simp [Cell.isWide, hne]
        have hsp : ∀ a : Buf, (a.cellOf ' ').isWide env = false := by
          intro a; simp [Cell.isWide, w_space henv]
        have base : NoTornIx env b.size.columns (setRange (b.cellOf ch) b.ix
            (b.size.columns - b.cursor.column) (tear env b.ix b.buffer)) := by
          refine noTornIx_setRange (noTornIx_tear henv hn _) (hx b) _ _ ?_
          intro c h0 hc
          rw [tear_get] at hc
          obtain ⟨c0, _, rfl⟩ := Option.map_eq_some_iff.mp hc
          by_cases h3 : c0.isWide env = true
          · rw [if_pos ⟨by omega, h3⟩]; simp [Cell.isWide, Cell.default, w_space henv]
          · rw [if_neg (fun hh => h3 hh.2)]; simpa using h3
        rw [writeCharNT_wrap h hd hin (by omega) hw] at e
        by_cases hl : b.cursor.line + 1 < b.size.lines
        · rw [if_pos hl, Option.some.injEq, Prod.mk.injEq] at e
          obtain ⟨rfl, rfl⟩ := e
          simp only
          unfold placed
          have hset : ∀ (l : List Cell) (k : Nat), l.set k (b.cellOf ch) =
              setRange (b.cellOf ch) k 1 l := fun _ _ => rfl
          rw [hset]
          refine noTornIx_setRange (noTornIx_setRange base (hx b) _ _ ?_) (hsp b) _ _ ?_
          · intro c h0 hc
            rw [setRange_get] at hc
            split at hc
            · obtain rfl := Option.some.inj hc; exact hx b
            · next hh =>
              exfalso
              apply hh
              have hcol := hin.2
              have h1 : (b.cursor.line + 1) * b.size.columns ≤ b.size.lines * b.size.columns :=
                Nat.mul_le_mul_right _ hin.1
              have h2 : (b.cursor.line + 1) * b.size.columns =
                b.cursor.line * b.size.columns + b.size.columns := by rw [Nat.add_mul]; omega
              rw [tear_length, h.len, ix_eq]; unfold numOf
              omega
          · intro c h0 hc
            rw [setRange_get] at hc
            split at hc
            · obtain rfl := Option.some.inj hc; exact hx b
            · next hh =>
              exfalso
              apply hh
              have hlt := (List.getElem?_eq_some_iff.mp hc).1
              omega
        · rw [if_neg hl, Option.some.injEq, Prod.mk.injEq] at e
          obtain ⟨rfl, rfl⟩ := e
          exact base
    · rw [writeCharNT_oob hd hin, Option.some.injEq, Prod.mk.injEq] at e
      obtain ⟨rfl, rfl⟩ := e
      exact hn
  · rw [writeCharNT_invisible h1 h2 h3, Option.some.injEq, Prod.mk.injEq] at e
    obtain ⟨rfl, rfl⟩ := e
    exact hn

/-- A write keeps the grid facts, whenever it succeeds. -/
theorem writeChar_inv {env : UEnv} (henv : SpaceOk env) {b b' : Buf} {r : WRes} {ch : Char}
    (h : b.Inv) (hw : env.w ch ≤ b.size.columns) (e : b.writeChar env ch = some (b', r)) :
    b'.Inv ∧ SameFrame b b' := by
  by_cases hl : ch = '\n' → b.cursor.line < usizeMax
  · obtain ⟨b1, r1, e1, st⟩ := writeChar_total henv h hw hl
    rw [e, Option.some.injEq, Prod.mk.injEq] at e1
    obtain ⟨rfl, rfl⟩ := e1
    exact ⟨st.inv, st.frame⟩
  · have hch : ch = '\n' := by
      by_cases hc : ch = '\n'
      · exact hc
      · exact absurd (fun hh => absurd hh hc) hl
    subst hch
    have hge : ¬ b.cursor.line < usizeMax := fun hh => hl fun _ => hh
    rw [writeChar_eq_NT (by decide)] at e
    unfold Buf.writeCharNT uadd at e
    rw [if_neg (by decide), if_pos rfl, if_neg (by omega)] at e
    cases e

theorem noTorn_tab {env : UEnv} (henv : SpaceOk env) (n : Nat) {b b' : Buf} {r : WRes}
    (h : b.Inv) (hn : NoTornIx env b.size.columns b.buffer)
    (e : Buf.tabLoop env n b = some (b', r)) : NoTornIx env b'.size.columns b'.buffer := by
  induction n generalizing b with
  | zero =>
    rw [Buf.tabLoop, Option.some.injEq, Prod.mk.injEq] at e
    obtain ⟨rfl, rfl⟩ := e
    exact hn
  | succ n ih =>
    have hsp := w_space henv
    have hc1 := h.size.2.1
    cases e1 : b.writeCharNT env ' ' with
    | none => rw [Buf.tabLoop, e1] at e; cases e
    | some x =>
      obtain ⟨b1, r1⟩ := x
      have hn1 := noTorn_writeCharNT henv (by decide) h hn (by omega) (by omega) e1
      have hi1 := (writeChar_inv henv (ch := ' ') h (by omega)
        (by rw [writeChar_eq_NT (by decide)]; exact e1)).1
      rw [Buf.tabLoop, e1] at e
      cases r1 with
      | ok => exact ih hi1 hn1 e
      | oob =>
        simp at e
        obtain ⟨rfl, rfl⟩ := e
        exact hn1

theorem noTorn_writeStr {env : UEnv} (henv : SpaceOk env) (s : List Char) {b b' : Buf} {r : WRes}
    (h : b.Inv) (hn : NoTornIx env b.size.columns b.buffer) (hs : SafeText env b s)
    (e : b.writeStr env s = some (b', r)) :
    NoTornIx env b'.size.columns b'.buffer ∧ b'.Inv ∧ SameFrame b b' := by
  induction s generalizing b with
  | nil =>
    rw [Buf.writeStr, Option.some.injEq, Prod.mk.injEq] at e
    obtain ⟨rfl, rfl⟩ := e
    exact ⟨hn, h, SameFrame.refl _⟩
  | cons ch s ih =>
    obtain ⟨hw, hsafe, hrest⟩ := hs
    cases e1 : b.writeChar env ch with
    | none => rw [Buf.writeStr, e1] at e; cases e
    | some x =>
      obtain ⟨b1, r1⟩ := x
      obtain ⟨hi1, hf1⟩ := writeChar_inv henv h hw e1
      have hn1 : NoTornIx env b1.size.columns b1.buffer := by
        by_cases ht : ch = '\t'
        · subst ht
          have e2 := e1
          unfold Buf.writeChar at e2
          rw [if_pos rfl] at e2
          cases hc : b.tryCursor with
          | oob =>
            rw [hc, Option.some.injEq, Prod.mk.injEq] at e2
            obtain ⟨rfl, rfl⟩ := e2
            exact hn
          | ok =>
            rw [hc] at e2
            have hin : InBounds b.cursor b.size := tryCursorAt_ok.mp hc
            have hcol := hin.2
            dsimp only [usub] at e2
            rw [if_pos (by omega)] at e2
            exact noTorn_tab henv _ h hn e2
        · rw [writeChar_eq_NT ht] at e1
          exact noTorn_writeCharNT henv ht h hn hw hsafe e1
      cases r1 with
      | ok =>
        rw [writeStr_cons e1] at e
        obtain ⟨g1, g2, g3⟩ := ih hi1 hn1 (hrest b1 e1) e
        exact ⟨g1, g2, SameFrame.trans hf1 g3⟩
      | oob =>
        rw [writeStr_cons_oob e1, Option.some.injEq, Prod.mk.injEq] at e
        obtain ⟨rfl, rfl⟩ := e
        exact ⟨hn1, hi1, hf1⟩

/-- Appending combining marks when the cursor is just after an in-bounds cell. -/
theorem writeStr_marks {env : UEnv} (ms : List Char) {b : Buf} (h : b.Inv)
    (hm : ∀ m ∈ ms, Mark env m) {d : Cursor} (hp : markPos b.size b.cursor = some d)
    (hd : InBounds d b.size) :
    ∃ b', b.writeStr env ms = some (b', .ok) ∧ SameFrame b b' ∧ b'.cursor = b.cursor ∧
      ∀ i, b'.buffer[i]? = b.buffer[i]?.map fun c =>
        if i = numOf b.size d then { c with text := c.text ++ ms } else c := by
  induction ms generalizing b with
  | nil => exact ⟨b, rfl, SameFrame.refl _, rfl, fun i => by simp⟩
  | cons m ms ih =>
    have hmm := hm m (List.mem_cons_self ..)
    have htab : m ≠ '\t' := by have := hmm.ctl; simp at this; exact this.2.2
    have e1 : b.writeChar env m = some
        ({ b with buffer := b.buffer.modify (d.asIndex b.size) (addMark m) }, .ok) := by
      rw [writeChar_eq_NT htab]
      rcases writeCharNT_comb h hmm with ⟨hn, _⟩ | ⟨d', hd', _, e⟩ | ⟨d', hd', hn, _⟩
      · rw [hp] at hn; cases hn
      · rw [hp, Option.some.injEq] at hd'; subst hd'; exact e
      · rw [hp, Option.some.injEq] at hd'; subst hd'; exact absurd hd hn
    obtain ⟨b2, e2, f2, c2, g2⟩ := ih
      (b := { b with buffer := b.buffer.modify (d.asIndex b.size) (addMark m) })
      ⟨h.size, by simp only [List.length_modify]; exact h.len, h.backLen, by
        intro c hc
        simp only at hc
        obtain ⟨i, hi⟩ := List.mem_iff_getElem?.mp hc
        rw [List.getElem?_modify, Option.map_eq_map, Option.map_eq_some_iff] at hi
        obtain ⟨a, ha, rfl⟩ := hi
        split
        · simp [addMark]
        · exact h.text _ (List.mem_of_getElem? ha)⟩
      (fun x hx => hm x (List.mem_cons_of_mem _ hx)) hp hd
    refine ⟨b2, (writeStr_cons e1).trans e2, f2, c2, fun i => ?_⟩
    rw [g2 i]
    simp only
    rw [List.getElem?_modify]
    have hix : d.asIndex b.size = numOf b.size d := rfl
    rw [hix]
    cases b.buffer[i]? with
    | none => rfl
    | some c =>
      by_cases hi : i = numOf b.size d
      · simp [hi, addMark]
      · have : ¬ numOf b.size d = i := fun hh => hi hh.symm
        simp [hi, this]

theorem markPos_advance {s : Size} {c : Cursor} (h : InBounds c s) :
    markPos s (advance s c 1) = some c := by
  have h2 := h.2
  by_cases hc : c.column + 1 = s.columns
  · have e : advance s c 1 = ⟨c.line + 1, 0⟩ := by unfold advance; rw [if_pos (by omega)]
    rw [e]
    simp [markPos, show s.columns - 1 = c.column by omega]
  · have e : advance s c 1 = ⟨c.line, c.column + 1⟩ := by unfold advance; rw [if_neg (by omega)]
    rw [e]
    simp [markPos]

theorem noTorn_runOps {env : UEnv} (henv : SpaceOk env) {b' : Buf} : ∀ (ops : List BufOp) (b : Buf),
    b.Inv → NoTornIx env b.size.columns b.buffer → SafeRun env b ops →
    runOps env ops b = some b' → b'.Inv ∧ NoTornIx env b'.size.columns b'.buffer := by
  intro ops
  induction ops with
  | nil =>
    intro b hb hn _ e
    rw [runOps, Option.some.injEq] at e
    exact e ▸ ⟨hb, hn⟩
  | cons op ops ih =>
    intro b hb hn hs e
    obtain ⟨hop, hrest⟩ := hs
    rw [runOps] at e
    cases e1 : op.run env b with
    | none => rw [e1] at e; cases e
    | some b1 =>
      rw [e1] at e
      suffices hstep : b1.Inv ∧ NoTornIx env b1.size.columns b1.buffer from
        ih b1 hstep.1 hstep.2 (hrest b1 e1) e
      have str : ∀ (b : Buf) (s : List Char) (b1 : Buf), b.Inv →
          NoTornIx env b.size.columns b.buffer → SafeText env b s →
          (b.writeStr env s).map (·.1) = some b1 →
          b1.Inv ∧ NoTornIx env b1.size.columns b1.buffer := by
        intro b s b1 hb hn hs e
        cases e2 : b.writeStr env s with
        | none => rw [e2] at e; cases e
        | some x =>
          obtain ⟨b2, r2⟩ := x
          rw [e2] at e
          simp at e
          subst e
          obtain ⟨g1, g2, _⟩ := noTorn_writeStr henv s hb hn hs e2
          exact ⟨g2, g1⟩
      have styled : ∀ (b : Buf) (s : List Char) (fg bg : Option Color) (st : Style) (b1 : Buf),
          b.Inv → NoTornIx env b.size.columns b.buffer →
          SafeText env { b with fg := fg, bg := bg, style := st } s →
          (b.writeStyled env fg bg st s).map (·.1) = some b1 →
          b1.Inv ∧ NoTornIx env b1.size.columns b1.buffer := by
        intro b s fg bg st b1 hb hn hs e
        unfold Buf.writeStyled at e
        cases e2 : ({ b with fg := fg, bg := bg, style := st } : Buf).writeStr env s with
        | none => rw [e2] at e; cases e
        | some x =>
          obtain ⟨b2, r2⟩ := x
          rw [e2] at e
          obtain ⟨g1, g2, _⟩ := noTorn_writeStr henv s
            (b := { b with fg := fg, bg := bg, style := st })
            ⟨hb.size, hb.len, hb.backLen, hb.text⟩ hn hs e2
          cases r2 with
          | ok =>
            simp at e
            subst e
            exact ⟨⟨g2.size, g2.len, g2.backLen, g2.text⟩, g1⟩
          | oob =>
            simp at e
            subst e
            exact ⟨g2, g1⟩
      cases op with
      | writeChar ch =>
        refine str b [ch] b1 hb hn hop ?_
        rw [← e1]
        unfold BufOp.run Buf.writeStr
        simp only
        cases b.writeChar env ch with
        | none => rfl
        | some x => obtain ⟨b2, r2⟩ := x; cases r2 <;> rfl
      | writeStr s => exact str b s b1 hb hn hop e1
      | writeAt pos s =>
        simp only [BufOp.run] at e1
        unfold Buf.writeAt at e1
        by_cases hp : InBounds pos b.size
        · rw [tryCursorAt_ok.mpr hp] at e1
          exact str { b with cursor := pos } s b1 ⟨hb.size, hb.len, hb.backLen, hb.text⟩ hn hop e1
        · rw [tryCursorAt_oob.mpr hp] at e1
          simp at e1; subst e1; exact ⟨hb, hn⟩
      | writeStyled fg bg st s => exact styled b s fg bg st b1 hb hn hop e1
      | writeStyledAt pos fg bg st s =>
        simp only [BufOp.run] at e1
        unfold Buf.writeStyledAt at e1
        by_cases hp : InBounds pos b.size
        · rw [tryCursorAt_ok.mpr hp] at e1
          exact styled { b with cursor := pos } s fg bg st b1
            ⟨hb.size, hb.len, hb.backLen, hb.text⟩ hn hop e1
        · rw [tryCursorAt_oob.mpr hp] at e1
          simp at e1; subst e1; exact ⟨hb, hn⟩
      | clearScreen =>
        simp [BufOp.run] at e1
        subst e1
        refine ⟨⟨hb.size, ?_, hb.backLen, ?_⟩, ?_⟩
        · simp only [Buf.clearScreen, List.length_map]; exact hb.len
        · intro c hc
          simp only [Buf.clearScreen, List.mem_map] at hc
          obtain ⟨_, _, rfl⟩ := hc
          simp [Cell.default]
        · intro i cell hi hwd
          simp only [Buf.clearScreen, List.getElem?_map] at hi
          obtain ⟨_, _, rfl⟩ := Option.map_eq_some_iff.mp hi
          simp [Cell.isWide, Cell.default, w_space henv] at hwd
      | nextLine c =>
        simp only [BufOp.run, Buf.nextLine, uadd] at e1
        split at e1
        · simp at e1; subst e1; exact ⟨⟨hb.size, hb.len, hb.backLen, hb.text⟩, hn⟩
        · cases e1
      | resize s =>
        obtain ⟨hgs, hcut⟩ := hop
        obtain ⟨b2, e2, hi2, hsz, -, -, -, -, -, g2⟩ := resize_inv hb hgs
        simp only [BufOp.run] at e1
        rw [e2, Option.some.injEq] at e1
        subst e1
        refine ⟨hi2, (noTorn_iff hi2).mp ?_⟩
        have hnt := (noTorn_iff hb).mpr hn
        intro c cell hin hcell hwd
        rw [hsz] at hin ⊢
        unfold cellAt at hcell ⊢
        rw [hsz] at hcell ⊢
        rw [g2 _ _ hin.1 hin.2] at hcell
        by_cases hold : c.line < b.size.lines ∧ c.column < b.size.columns
        · rw [if_pos hold] at hcell
          obtain ⟨h1, nxt, h2, h3⟩ := hnt c cell hold hcell hwd
          have hne : c.column + 1 ≠ s.columns := fun hh => hcut c cell hold hh hcell hwd
          have hin2 := hin.2
          refine ⟨by omega, nxt, ?_, h3⟩
          simp only
          rw [g2 _ _ hin.1 (by omega), if_pos ⟨hold.1, h1⟩]
          exact h2
        · rw [if_neg hold, Option.some.injEq] at hcell
          subst hcell
          obtain ⟨ch, rest, h1, h2⟩ := hwd
          simp [Cell.default] at h1
          rw [← h1.1, henv.width] at h2
          cases h2
      | setCursor c => simp [BufOp.run] at e1; subst e1; exact ⟨⟨hb.size, hb.len, hb.backLen, hb.text⟩, hn⟩
      | clearAttributes => simp [BufOp.run] at e1; subst e1; exact ⟨⟨hb.size, hb.len, hb.backLen, hb.text⟩, hn⟩
      | addStyle s => simp [BufOp.run] at e1; subst e1; exact ⟨⟨hb.size, hb.len, hb.backLen, hb.text⟩, hn⟩
      | removeStyle s => simp [BufOp.run] at e1; subst e1; exact ⟨⟨hb.size, hb.len, hb.backLen, hb.text⟩, hn⟩
      | setStyle s => simp [BufOp.run] at e1; subst e1; exact ⟨⟨hb.size, hb.len, hb.backLen, hb.text⟩, hn⟩
      | setFg s => simp [BufOp.run] at e1; subst e1; exact ⟨⟨hb.size, hb.len, hb.backLen, hb.text⟩, hn⟩
      | setBg s => simp [BufOp.run] at e1; subst e1; exact ⟨⟨hb.size, hb.len, hb.backLen, hb.text⟩, hn⟩
      | setTheme t => simp [BufOp.run] at e1; subst e1; exact ⟨⟨hb.size, hb.len, hb.backLen, hb.text⟩, hn⟩

end Mortal
