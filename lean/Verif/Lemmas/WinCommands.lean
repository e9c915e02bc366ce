import Verif.Lemmas.WinErase
import Verif.Spec.WinErase

/-! # Cursor and erasing commands on a Windows console -/

namespace Mortal
open Spec

variable {u : UEnv} {k : Nat}

theorem onlyBuffer_set {c : Con} {h : Nat} {o : OutBuf} (ho : c.outs h = some o) (o' : OutBuf)
    (q : List InRec) : OnlyBuffer h c { c.setOut h o' with queue := q } o o' := by
  refine ⟨rfl, rfl, rfl, fun j hj => ?_, ho, ?_⟩
  · show (c.setOut h o').outs j = _
    unfold Con.setOut
    exact if_neg hj
  · exact setOut_outs c h o'

theorem onlyQueue_cat {c c' : Con} {s s' : WinSt} (h : CAt c s c' s') : OnlyQueue c c' := by
  obtain ⟨⟨q, rfl⟩, -⟩ := h
  exact ⟨rfl, rfl, rfl, rfl⟩

theorem onlyBuffer_cat {c c' : Con} {s s' : WinSt} {h : Nat} {o o' : OutBuf}
    (ho : c.outs h = some o) (hc : CAt (c.setOut h o') s c' s') : OnlyBuffer h c c' o o' := by
  obtain ⟨⟨q, rfl⟩, -⟩ := hc
  exact onlyBuffer_set ho o' q

/-! ## Positions -/

theorem bufSize_small {z : Size} (h : BufSize z) : SmallSize z := ⟨h.2.1, h.2.2.2⟩

theorem tells_cursor {o : OutBuf} {i : Info} (h : o.Tells i) :
    ∃ p, CursorIn o p ∧ i.cursor = atCoord p := by
  obtain ⟨-, ⟨p, hp, e⟩, h3, -⟩ := h
  refine ⟨p, ⟨hp, fun q hq => ?_⟩, e⟩
  have := h3 q hq
  rw [e] at this
  unfold atCoord at this
  simp only [Coord.mk.injEq] at this
  exact cursor_ext.mpr ⟨by omega, by omega⟩

theorem numOf_line {z : Size} {p q : Cursor} (hp : InBounds p z) (hq : InBounds q z)
    (h : p.line < q.line) : numOf z p + (z.columns - p.column) ≤ numOf z q := by
  have h1 : (p.line + 1) * z.columns ≤ q.line * z.columns := Nat.mul_le_mul_right _ h
  rw [Nat.add_mul] at h1
  have h2 := hp.2
  unfold numOf
  omega

theorem swept_line {z : Size} {p q : Cursor} (hs : SmallSize z) (hp : InBounds p z)
    (hq : InBounds q z) : Swept z (atCoord p) (z.columns - p.column) q ↔ RestOfLine p q := by
  unfold Swept RestOfLine
  rw [(coord_at hs hp).1]
  have h1 := hp.2
  have h2 := hq.2
  rcases Nat.lt_trichotomy p.line q.line with h | h | h
  · have := numOf_line hp hq h
    constructor
    · rintro (h' | h')
      · exact absurd hq h'
      · omega
    · intro h'; omega
  · unfold numOf
    rw [h]
    constructor
    · rintro (h' | h')
      · exact absurd hq h'
      · omega
    · intro h'; right; omega
  · have := numOf_line hq hp h
    constructor
    · rintro (h' | h')
      · exact absurd hq h'
      · omega
    · intro h'; omega

theorem swept_screen {z : Size} {p q : Cursor} (hs : SmallSize z) (hp : InBounds p z)
    (hq : InBounds q z) :
    Swept z (atCoord p) ((z.lines - p.line) * z.columns + (z.columns - p.column)) q ↔
      RestOfScreen p q := by
  unfold Swept RestOfScreen RestOfLine
  rw [(coord_at hs hp).1]
  have h1 := hp.2
  have h2 := hq.2
  have h3 := numOf_lt hq
  have h4 : numOf z p + ((z.lines - p.line) * z.columns + (z.columns - p.column)) =
      z.lines * z.columns + z.columns := by
    have : p.line ≤ z.lines := Nat.le_of_lt hp.1
    rw [Nat.sub_mul]
    have := Nat.mul_le_mul_right z.columns this
    unfold numOf
    omega
  rcases Nat.lt_trichotomy p.line q.line with h | h | h
  · have := numOf_line hp hq h
    exact ⟨fun _ => Or.inl h, fun _ => Or.inr (by omega)⟩
  · constructor
    · rintro (h' | h')
      · exact absurd hq h'
      · unfold numOf at h'
        rw [h] at h'
        omega
    · intro h'
      refine Or.inr ⟨?_, by omega⟩
      unfold numOf
      rw [h]
      omega
  · have := numOf_line hq hp h
    constructor
    · rintro (h' | h')
      · exact absurd hq h'
      · omega
    · intro h'; omega

theorem short_some {n : Int} (h1 : -32768 ≤ n) (h2 : n ≤ 32767) : short n = some n := by
  unfold short
  rw [if_pos (by unfold IsShort; omega)]

theorem dword_of (n : Nat) (h : n ≤ 32767) : (shortToDword (n : Int)).toNat = n := by
  unfold shortToDword
  rw [BitVec.toNat_ofInt]
  omega

theorem lineEndCount_eq {z : Size} {p : Cursor} (hs : SmallSize z) (hp : InBounds p z) :
    ∃ n, lineEndCount (sizeCoord z) (atCoord p) = some n ∧ n.toNat = z.columns - p.column := by
  have h1 := hp.2
  have h2 := hs.2
  unfold lineEndCount sizeCoord atCoord
  rw [short_some (by dsimp only; omega) (by dsimp only; omega)]
  refine ⟨_, rfl, ?_⟩
  dsimp only
  have : ((z.columns : Int) - p.column) = ((z.columns - p.column : Nat) : Int) := by omega
  rw [this, dword_of _ (by omega)]

theorem screenEndCount_eq {z : Size} {p : Cursor} (hs : SmallSize z) (hp : InBounds p z) :
    ∃ n, screenEndCount (sizeCoord z) (atCoord p) = some n ∧
      n.toNat = (z.lines - p.line) * z.columns + (z.columns - p.column) := by
  have h1 := hp.1
  have h2 := hp.2
  have h3 := hs.1
  have h4 := hs.2
  have e1 : ((z.lines : Int) - p.line) = ((z.lines - p.line : Nat) : Int) := by omega
  have e2 : ((z.columns : Int) - p.column) = ((z.columns - p.column : Nat) : Int) := by omega
  have hm : (z.lines - p.line) * z.columns ≤ 32767 * 32767 :=
    Nat.mul_le_mul (by omega) (by omega)
  unfold screenEndCount sizeCoord atCoord
  dsimp only
  rw [short_some (by omega) (by omega), short_some (by omega) (by omega), e1, e2]
  simp only [Option.bind_eq_bind, Option.bind_some]
  rw [dword_of _ (by omega), dword_of _ h4, dword_of _ (by omega)]
  unfold dword
  rw [if_pos (by omega)]
  simp only [Option.bind_some, BitVec.toNat_ofNat]
  rw [Nat.mod_eq_of_lt (by omega), if_pos (by omega)]
  refine ⟨_, rfl, ?_⟩
  rw [BitVec.toNat_ofNat]
  omega

/-! ## Erasing -/

theorem erased_spec {o : OutBuf} {w : BitVec 16} {n : Nat} {start : Coord} {R : Cursor → Prop}
    (h : ∀ q, InBounds q o.glyph.size → (Swept o.glyph.size start n q ↔ R q)) :
    Erased R w o (OutBuf.erased o w n start) := by
  have hx : ∀ q, Swept o.glyph.size start n q ↔ (R q ∨ ¬ InBounds q o.glyph.size) := by
    intro q
    by_cases hq : InBounds q o.glyph.size
    · rw [h q hq]; simp [hq]
    · unfold Swept; simp [hq]
  refine ⟨rfl, fun q hq => ⟨fun hr => ?_, fun hr => ?_⟩⟩
  · have hs := (h q hq).mpr hr
    unfold OutBuf.erased OutBuf.fillAttr OutBuf.fillChar
    dsimp only
    rw [if_pos hs, if_pos hs]
    exact ⟨rfl, rfl⟩
  · have hs : ¬ Swept o.glyph.size start n q := fun hs => hr ((h q hq).mp hs)
    unfold OutBuf.erased OutBuf.fillAttr OutBuf.fillChar
    dsimp only
    rw [if_neg hs, if_neg hs]
    refine ⟨rfl, ?_, ?_⟩
    · rintro ⟨h1, hh, h2⟩
      rw [← hx] at h2
      rcases hh with ⟨x, e, rfl⟩ | ⟨e, rfl⟩ <;> rw [e] <;> exact if_pos h2
    · intro hn
      cases e : o.glyph.cell q with
      | left x d =>
        refine if_neg fun h2 => hn ⟨_, Or.inl ⟨x, e, rfl⟩, (hx _).mp h2⟩
      | right => refine if_neg fun h2 => hn ⟨_, Or.inr ⟨e, rfl⟩, (hx _).mp h2⟩
      | narrow x d => rfl
      | torn => rfl

theorem recoloured_spec {o : OutBuf} {w : BitVec 16} {n : Nat} {start : Coord} {R : Cursor → Prop}
    (h : ∀ q, InBounds q o.glyph.size → (Swept o.glyph.size start n q ↔ R q)) :
    Recoloured R w o (o.fillAttr w n start) := by
  refine ⟨rfl, fun q hq => ?_⟩
  unfold OutBuf.fillAttr
  dsimp only
  by_cases hs : Swept o.glyph.size start n q
  · exact Or.inr ⟨(h q hq).mp hs, if_pos hs⟩
  · exact Or.inl (if_neg hs)

/-- Erasing from where the cursor is. -/
theorem does_eraseFrom (hsp : u.w ' ' = 1) (c0 : Con) (s0 : WinSt) (t : WTerm) (o : OutBuf)
    (ho : c0.outs s0.outH = some o)
    (count : Coord → Coord → Panics (BitVec 32)) (N : Cursor → Nat) (R : Cursor → Cursor → Prop)
    (hN : ∀ p, InBounds p o.glyph.size →
      ∃ n, count (sizeCoord o.glyph.size) (atCoord p) = some n ∧ n.toNat = N p)
    (hR : ∀ p q, InBounds p o.glyph.size → InBounds q o.glyph.size →
      (Swept o.glyph.size (atCoord p) (N p) q ↔ R p q)) :
    Does u k (CAt c0 s0)
      (do
        let info ← consoleInfo (← SM.get).outH
        let n ← SM.ofPanics (count info.size info.cursor)
        clearArea t info.cursor n)
      (fun _ c s => ∃ p o', CursorIn o p ∧ Erased (R p) t.defAttrs o o' ∧
        CAt (c0.setOut s0.outH o') s0 c s)
      (fun _ c s => CAt c0 s0 c s ∨ ∃ p o', CursorIn o p ∧ Recoloured (R p) t.defAttrs o o' ∧
        CAt (c0.setOut s0.outH o') s0 c s) := by
  refine Does.getAt (by unfold clearArea; intro _; grows_tac) fun a e _ => ?_
  rw [e]
  refine Does.bind (does_info c0 s0 (fun _ _ h => Or.inl h) s0.outH) fun i => ?_
  refine Does.assume (by unfold clearArea; grows_tac) ?_
  rintro ⟨o', h1, hi⟩
  rw [ho] at h1; cases h1
  obtain ⟨p, hp, ep⟩ := tells_cursor hi
  obtain ⟨n, hn, hn'⟩ := hN p hp.1
  rw [ep, hi.1, hn]
  refine Does.bindPanics (fun _ => grows_clearArea _ _ _) fun n' en => ?_
  cases en
  refine Does.mono (does_clearArea hsp c0 s0 t _ _) (fun _ _ h => h) ?_ ?_
  · rintro _ c s ⟨o', h1, -, h2⟩
    rw [ho] at h1; cases h1
    refine ⟨p, _, hp, erased_spec fun q hq => ?_, h2⟩
    rw [hn']; exact hR p q hp.1 hq
  · rintro _ c s (h | ⟨o', h1, -, h2⟩)
    · exact Or.inl h
    · rw [ho] at h1; cases h1
      refine Or.inr ⟨p, _, hp, recoloured_spec fun q hq => ?_, h2⟩
      rw [hn']; exact hR p q hp.1 hq

theorem does_clearToLineEnd (hsp : u.w ' ' = 1) (c0 : Con) (s0 : WinSt) (t : WTerm) (o : OutBuf)
    (ho : c0.outs s0.outH = some o) (hs : SmallSize o.glyph.size) :
    Does u k (CAt c0 s0) (winClearToLineEnd t)
      (fun _ c s => ∃ p o', CursorIn o p ∧ Erased (RestOfLine p) t.defAttrs o o' ∧
        CAt (c0.setOut s0.outH o') s0 c s)
      (fun _ c s => CAt c0 s0 c s ∨ ∃ p o', CursorIn o p ∧
        Recoloured (RestOfLine p) t.defAttrs o o' ∧ CAt (c0.setOut s0.outH o') s0 c s) :=
  does_eraseFrom hsp c0 s0 t o ho lineEndCount (fun p => o.glyph.size.columns - p.column) RestOfLine
    (fun _ hp => lineEndCount_eq hs hp) (fun _ _ hp hq => swept_line hs hp hq)

theorem does_clearToScreenEnd (hsp : u.w ' ' = 1) (c0 : Con) (s0 : WinSt) (t : WTerm) (o : OutBuf)
    (ho : c0.outs s0.outH = some o) (hs : SmallSize o.glyph.size) :
    Does u k (CAt c0 s0) (winClearToScreenEnd t)
      (fun _ c s => ∃ p o', CursorIn o p ∧ Erased (RestOfScreen p) t.defAttrs o o' ∧
        CAt (c0.setOut s0.outH o') s0 c s)
      (fun _ c s => CAt c0 s0 c s ∨ ∃ p o', CursorIn o p ∧
        Recoloured (RestOfScreen p) t.defAttrs o o' ∧ CAt (c0.setOut s0.outH o') s0 c s) :=
  does_eraseFrom hsp c0 s0 t o ho screenEndCount
    (fun p => (o.glyph.size.lines - p.line) * o.glyph.size.columns + (o.glyph.size.columns - p.column))
    RestOfScreen (fun _ hp => screenEndCount_eq hs hp) (fun _ _ hp hq => swept_screen hs hp hq)

/-! ## Moving -/

/-- Moving relative to where the cursor is. -/
theorem does_moveFrom (c0 : Con) (s0 : WinSt) (o : OutBuf)
    (ho : c0.outs s0.outH = some o) (dest : Coord → Coord → Panics Coord) :
    Does u k (CAt c0 s0)
      (do
        let info ← consoleInfo (← SM.get).outH
        let d ← SM.ofPanics (dest info.size info.cursor)
        moveAbs d)
      (fun _ c s => ∃ p d, CursorIn o p ∧ dest (sizeCoord o.glyph.size) (atCoord p) = some d ∧
        CoordIn d o.glyph.size ∧ CAt (c0.setOut s0.outH (o.moved (coordToCursor d))) s0 c s)
      (fun _ => CAt c0 s0) := by
  refine Does.getAt (by unfold moveAbs; intro _; grows_tac) fun a e _ => ?_
  rw [e]
  refine Does.bind (does_info c0 s0 (fun _ _ h => h) s0.outH) fun i => ?_
  refine Does.assume (by unfold moveAbs; grows_tac) ?_
  rintro ⟨o', h1, hi⟩
  rw [ho] at h1; cases h1
  obtain ⟨p, hp, ep⟩ := tells_cursor hi
  rw [ep, hi.1]
  refine Does.bindPanics (fun _ => grows_moveAbs _) fun d hd => ?_
  refine Does.mono (does_moveAbs c0 s0 d) (fun _ _ h => h) ?_ (fun _ _ _ h => h)
  rintro _ c s ⟨o', h1, h2, h3⟩
  rw [ho] at h1; cases h1
  exact ⟨p, d, hp, hd, h2, h3⟩

/-- One more step of the same kind: `move_to_first_column`. -/
theorem does_firstColumn (c0 : Con) (s0 : WinSt) (o : OutBuf) (ho : c0.outs s0.outH = some o)
    (hs : SmallSize o.glyph.size) :
    Does u k (CAt c0 s0) winFirstColumn
      (fun _ c s => ∃ p, CursorIn o p ∧ CAt (c0.setOut s0.outH (o.moved ⟨p.line, 0⟩)) s0 c s)
      (fun _ => CAt c0 s0) := by
  unfold winFirstColumn
  refine Does.getAt (by unfold moveAbs; intro _; grows_tac) fun a e _ => ?_
  rw [e]
  refine Does.bind (does_info c0 s0 (fun _ _ h => h) s0.outH) fun i => ?_
  refine Does.assume (by unfold moveAbs; grows_tac) ?_
  rintro ⟨o', h1, hi⟩
  rw [ho] at h1; cases h1
  obtain ⟨p, hp, ep⟩ := tells_cursor hi
  rw [ep]
  refine Does.mono (does_moveAbs c0 s0 _) (fun _ _ h => h) ?_ (fun _ _ _ h => h)
  rintro _ c s ⟨o', h1, -, h3⟩
  rw [ho] at h1; cases h1
  refine ⟨p, hp, ?_⟩
  have hp0 : InBounds ⟨p.line, 0⟩ o.glyph.size := ⟨hp.1.1, Nat.lt_of_le_of_lt (Nat.zero_le _) hp.1.2⟩
  have := (coord_at hs hp0).1
  unfold atCoord at this
  have e : coordToCursor ⟨0, (atCoord p).y⟩ = ⟨p.line, 0⟩ := this
  rw [e] at h3
  exact h3

theorem moveRelDest_eq {z : Size} {p : Cursor} (hs : SmallSize z) (off : Coord)  :
    moveRelDest (sizeCoord z) (atCoord p) off = some ⟨min (shortSatAdd p.column off.x) (z.columns - 1),
      min (shortSatAdd p.line off.y) (z.lines - 1)⟩ := by
  have h1 := hs.1
  have h2 := hs.2
  unfold moveRelDest sizeCoord atCoord
  dsimp only
  rw [short_some (by omega) (by omega), short_some (by omega) (by omega)]
  rfl

theorem does_moveRel (c0 : Con) (s0 : WinSt) (o : OutBuf) (off : Coord)
    (ho : c0.outs s0.outH = some o) (hs : SmallSize o.glyph.size) :
    Does u k (CAt c0 s0) (moveRel off)
      (fun _ c s => ∃ p r, CursorIn o p ∧ InBounds r o.glyph.size ∧
        (r.column : Int) = min (shortSatAdd p.column off.x) (o.glyph.size.columns - 1) ∧
        (r.line : Int) = min (shortSatAdd p.line off.y) (o.glyph.size.lines - 1) ∧
        CAt (c0.setOut s0.outH (o.moved r)) s0 c s)
      (fun _ => CAt c0 s0) := by
  refine Does.mono (does_moveFrom c0 s0 o ho fun size cursor => moveRelDest size cursor off)
    (fun _ _ h => h) ?_ (fun _ _ _ h => h)
  rintro _ c s ⟨p, d, hp, hd, ⟨r, hr, rfl⟩, h⟩
  rw [moveRelDest_eq hs] at hd
  simp only [atCoord, Option.some.injEq, Coord.mk.injEq] at hd
  rw [(coord_at hs hr).1] at h
  exact ⟨p, r, hp, hr, hd.1.symm, hd.2.symm, h⟩

/-! ## The shape of the cursor and the size -/

theorem does_cursorMode (c0 : Con) (s0 : WinSt) (m : CursorMode) :
    Does u k (CAt c0 s0) (winCursorMode m)
      (fun _ c s => ∃ o, c0.outs s0.outH = some o ∧
        CAt (c0.setOut s0.outH { o with shape := match m with
          | .normal => (25, true)
          | .invisible => (1, false)
          | .overwrite => (100, true) }) s0 c s)
      (fun _ => CAt c0 s0) := by
  have key : ∀ n v, Does u k (CAt c0 s0)
      (do boolCall (.setCursorInfo (← SM.get).outH n v))
      (fun _ c s => ∃ o, c0.outs s0.outH = some o ∧
        CAt (c0.setOut s0.outH { o with shape := (n, v) }) s0 c s) (fun _ => CAt c0 s0) := by
    intro n v
    refine Does.getAt (fun _ => grows_boolCall _) fun a e _ => ?_
    rw [e]
    refine Does.mono (does_bool c0 s0 (E := fun _ => CAt c0 s0) (fun c s h => h) _ (by bool_call)
      (fun c => ∃ o, c0.outs s0.outH = some o ∧
        c = c0.setOut s0.outH { o with shape := (n, v) }) ?_)
      (fun _ _ h => h) ?_ (fun _ _ _ h => h)
    · rintro q (pos | ⟨-, o, ho⟩)
      · cases pos
      · refine ⟨_, q, ⟨o, ho, rfl⟩, ?_⟩
        simp only [Con.step]
        rw [onOut_some (c := { c0 with queue := q }) ho]
        rfl
    · rintro a c s ⟨c1, ⟨o, ho, rfl⟩, h⟩; exact ⟨o, ho, h⟩
  cases m
  · exact key 25 true
  · exact key 1 false
  · exact key 100 true

/-! ## `clear_screen` -/

theorem does_setWindow (c0 : Con) (s0 : WinSt) {E : IoErr → Con → WinSt → Prop}
    (hE : ∀ c s, CAt c0 s0 c s → E .os c s) (h : Nat) (r : Rect) :
    Does u k (CAt c0 s0) (boolCall (.setWindow h r))
      (fun _ c s => ∃ o, c0.outs h = some o ∧ RectIn r o.glyph.size ∧
        CAt (c0.setOut h { o with window := r }) s0 c s) E := by
  refine Does.mono (does_bool c0 s0 hE _ (by bool_call)
    (fun c => ∃ o, c0.outs h = some o ∧ RectIn r o.glyph.size ∧
      c = c0.setOut h { o with window := r }) ?_)
    (fun _ _ h => h) ?_ (fun _ _ _ h => h)
  · rintro q (pos | ⟨-, o, ho, hp⟩)
    · cases pos
    · refine ⟨_, q, ⟨o, ho, hp, rfl⟩, ?_⟩
      simp only [Con.step]
      rw [onOut_some (c := { c0 with queue := q }) ho]
      rfl
  · rintro a c s ⟨c1, ⟨o, ho, hp, rfl⟩, h⟩; exact ⟨o, ho, hp, h⟩

theorem does_scroll (c0 : Con) (s0 : WinSt) {E : IoErr → Con → WinSt → Prop}
    (hE : ∀ c s, CAt c0 s0 c s → E .os c s) (h : Nat) (o : OutBuf) (ho : c0.outs h = some o)
    (d b : Int) (hd : 0 ≤ d) (hb : d ≤ b) :
    Does u k (CAt c0 s0)
      (boolCall (.scroll h ⟨0, d, o.glyph.size.columns, b⟩ ⟨0, 0⟩))
      (fun _ => CAt (c0.setOut h (o.scrollLines ⟨0, d, o.glyph.size.columns, b⟩ ⟨0, 0⟩)) s0) E := by
  refine Does.mono (does_bool c0 s0 hE _ (by bool_call)
    (fun c => c = c0.setOut h (o.scrollLines ⟨0, d, o.glyph.size.columns, b⟩ ⟨0, 0⟩)) ?_)
    (fun _ _ h => h) ?_ (fun _ _ _ h => h)
  · rintro q (pos | ⟨-, -⟩)
    · cases pos
    · refine ⟨_, q, rfl, ?_⟩
      simp only [Con.step]
      rw [onOut_some (c := { c0 with queue := q }) ho,
        if_pos (by refine ⟨?_, ?_, ?_, hd, hb, ?_⟩ <;> first | trivial | omega)]
      rfl
  · rintro a c s ⟨c1, rfl, h⟩; exact h

/-- The window moved down. -/
theorem does_moveWindow (c0 : Con) (s0 : WinSt) {E : IoErr → Con → WinSt → Prop}
    (hE : ∀ c s, CAt c0 s0 c s → E .os c s) (h : Nat) (o : OutBuf) (ho : c0.outs h = some o)
    (down : Int) :
    Does u k (CAt c0 s0) (moveWindow h o.window down)
      (fun r c s => r = { o.window with top := o.window.top + max down 0,
                                        bottom := o.window.bottom + max down 0 } ∧
        CAt (c0.setOut h { o with window := r }) s0 c s) E := by
  unfold moveWindow
  by_cases hd : down > 0
  · rw [if_pos hd]
    refine Does.bindPanics (by intro _; grows_tac) fun top et => ?_
    refine Does.bindPanics (by intro _; grows_tac) fun bot eb => ?_
    have et' : top = o.window.top + down := by
      unfold short at et; split at et <;> cases et; rfl
    have eb' : bot = o.window.bottom + down := by
      unfold short at eb; split at eb <;> cases eb; rfl
    subst et' eb'
    refine Does.bind (does_setWindow c0 s0 hE h _) fun _ => ?_
    refine Does.at ?_ (Grows.pure _)
    rintro c s ⟨o', h1, -, h2⟩
    rw [ho] at h1; cases h1
    refine Does.mono (Does.pure _ (P := CAt c s)) (fun _ _ h => h) ?_ (fun _ _ _ h => h)
    rintro r c' s' ⟨rfl, h3⟩
    rw [show max down 0 = down by omega]
    exact ⟨rfl, h2.trans h3⟩
  · rw [if_neg hd]
    refine Does.mono (Does.pure _ (P := CAt c0 s0)) (fun _ _ h => h) ?_ (fun _ _ _ h => h)
    rintro r c s ⟨rfl, h3⟩
    rw [show max down 0 = 0 by omega]
    refine ⟨by simp, ?_⟩
    rw [show ({ o with window := o.window } : OutBuf) = o from rfl, setOut_self ho]
    exact h3

/-- The window after `clear_screen` with the cursor on line `l`, if it does not cover the buffer. -/
def downWindow (o : OutBuf) (l : Nat) : Rect :=
  let down := min (l + 1 - o.window.top) (o.glyph.size.lines - (o.window.bottom + 1))
  { o.window with top := o.window.top + max down 0, bottom := o.window.bottom + max down 0 }

/-- The buffer after `clear_screen` with the cursor on line `l`, but for the position of the cursor. -/
def downBuf (o : OutBuf) (l : Nat) : OutBuf :=
  let win := downWindow o l
  let o1 := { o with window := win }
  if win.bottom - l < o.height then
    o1.scrollLines ⟨0, o.height - (win.bottom - l), o.glyph.size.columns, l⟩ ⟨0, 0⟩
  else o1

theorem downBuf_size (o : OutBuf) (l : Nat) : (downBuf o l).glyph.size = o.glyph.size ∧
    (downBuf o l).window = downWindow o l := by
  unfold downBuf
  dsimp only
  split <;> exact ⟨rfl, rfl⟩

theorem does_clearScreen_window (c0 : Con) (s0 : WinSt) (t : WTerm) (o : OutBuf)
    (ho : c0.outs s0.outH = some o) (hs : SmallSize o.glyph.size)
    (hw : RectIn o.window o.glyph.size) (hne : o.height ≠ o.glyph.size.lines) :
    Does u k (CAt c0 s0) (winClearScreen t)
      (fun _ c s => ∃ p r, CursorIn o p ∧ InBounds r o.glyph.size ∧
        (r.line : Int) = (downWindow o p.line).top ∧ (r.column : Int) = o.window.left ∧
        CAt (c0.setOut s0.outH ((downBuf o p.line).moved r)) s0 c s)
      (fun _ _ _ => True) := by
  have hg : ∀ h, Grows (do
      let info ← consoleInfo h
      let ht ← SM.ofPanics (short (info.window.bottom - info.window.top))
      let ht ← SM.ofPanics (short (ht + 1))
      if ht = info.size.y then
        let n ← SM.ofPanics (wholeCount info.size)
        clearArea t ⟨0, 0⟩ n
        moveAbs ⟨info.window.left, info.window.top⟩
      else
        let b1 ← SM.ofPanics (short (info.window.bottom + 1))
        let max ← SM.ofPanics (short (info.size.y - b1))
        let c1 ← SM.ofPanics (short (info.cursor.y + 1))
        let dist ← SM.ofPanics (short (c1 - info.window.top))
        let down := min dist max
        let win ← moveWindow h info.window down
        let clear ← SM.ofPanics (short (win.bottom - info.cursor.y))
        SM.when (clear < ht) do
          let d ← SM.ofPanics (short (ht - clear))
          boolCall (.scroll h ⟨0, d, info.size.x, info.cursor.y⟩ ⟨0, 0⟩)
        moveAbs ⟨win.left, win.top⟩) := by
    unfold clearArea moveAbs moveWindow SM.when; intro _; grows_tac
  obtain ⟨w1, w2, w3, w4, w5, w6⟩ := hw
  obtain ⟨z1, z2⟩ := id hs
  unfold winClearScreen
  refine Does.getAt (fun _ => hg _) fun a e _ => ?_
  rw [e]
  dsimp only
  refine Does.bind (does_info c0 s0 (fun _ _ _ => trivial) s0.outH) fun i => ?_
  refine Does.assume (by unfold clearArea moveAbs moveWindow SM.when; grows_tac) ?_
  rintro ⟨o', h1, hi⟩
  rw [ho] at h1; cases h1
  obtain ⟨p, hp, ep⟩ := tells_cursor hi
  obtain ⟨hi1, -, -, -, hi5⟩ := hi
  have hpl := hp.1.1
  have hy : i.size.y = o.glyph.size.lines := by rw [hi1]; rfl
  have hx : i.size.x = o.glyph.size.columns := by rw [hi1]; rfl
  have hcy : i.cursor.y = p.line := by rw [ep]; rfl
  rw [hi5, short_some (n := o.window.bottom - o.window.top) (by omega) (by omega)]
  refine Does.bindPanics (by unfold clearArea moveAbs moveWindow SM.when; intro _; grows_tac)
    fun ht eht => ?_
  cases eht
  rw [short_some (n := o.window.bottom - o.window.top + 1) (by omega) (by omega)]
  refine Does.bindPanics (by unfold clearArea moveAbs moveWindow SM.when; intro _; grows_tac)
    fun ht eht => ?_
  cases eht
  rw [if_neg (by rw [hy]; exact hne), short_some (n := o.window.bottom + 1) (by omega) (by omega)]
  refine Does.bindPanics (by unfold moveAbs moveWindow SM.when; intro _; grows_tac) fun b1 eb => ?_
  cases eb
  rw [hy, short_some (n := o.glyph.size.lines - (o.window.bottom + 1)) (by omega) (by omega)]
  refine Does.bindPanics (by unfold moveAbs moveWindow SM.when; intro _; grows_tac) fun b1 eb => ?_
  cases eb
  rw [hcy, hx, short_some (n := (p.line : Int) + 1) (by omega) (by omega)]
  refine Does.bindPanics (by unfold moveAbs moveWindow SM.when; intro _; grows_tac) fun b1 eb => ?_
  cases eb
  rw [short_some (n := (p.line : Int) + 1 - o.window.top) (by omega) (by omega)]
  refine Does.bindPanics (by unfold moveAbs moveWindow SM.when; intro _; grows_tac) fun b1 eb => ?_
  cases eb
  refine Does.bind (does_moveWindow c0 s0 (fun _ _ _ => trivial) s0.outH o ho _) fun win => ?_
  refine Does.assume (by unfold moveAbs SM.when; grows_tac) ?_
  intro hwin
  have hwin : win = downWindow o p.line := hwin
  subst hwin
  have hwb : (downWindow o p.line).bottom = o.window.bottom +
    max (min (p.line + 1 - o.window.top) (o.glyph.size.lines - (o.window.bottom + 1))) 0 := rfl
  rw [short_some (n := (downWindow o p.line).bottom - p.line) (by omega) (by omega)]
  refine Does.bindPanics (by unfold moveAbs SM.when; intro _; grows_tac) fun b1 eb => ?_
  cases eb
  refine Does.bind (R := fun _ => CAt (c0.setOut s0.outH (downBuf o p.line)) s0) ?_ fun _ => ?_
  · refine Does.when (fun hc => ?_) (fun hc c s h => ?_)
    · have hht : o.height = o.window.bottom - o.window.top + 1 := rfl
      rw [short_some (n := o.window.bottom - o.window.top + 1 - ((downWindow o p.line).bottom - p.line))
        (by omega) (by omega)]
      refine Does.bindPanics (by intro _; grows_tac) fun b1 eb => ?_
      cases eb
      have he : downBuf o p.line = ({ o with window := downWindow o p.line } : OutBuf).scrollLines
          ⟨0, o.window.bottom - o.window.top + 1 - ((downWindow o p.line).bottom - p.line),
            o.glyph.size.columns, p.line⟩ ⟨0, 0⟩ := if_pos hc
      refine Does.mono (does_scroll _ s0 (fun _ _ _ => trivial) s0.outH
        { o with window := downWindow o p.line } (setOut_outs _ _ _) _ _ (by omega) (by omega))
        (fun _ _ h => h) ?_ (fun _ _ _ h => h)
      intro _ c s h
      rw [setOut_setOut] at h
      rw [he]; exact h
    · have he : downBuf o p.line = ({ o with window := downWindow o p.line } : OutBuf) := if_neg hc
      rw [he]; exact h
  · refine Does.mono (does_moveAbs _ s0 _) (fun _ _ h => h) ?_ (fun _ _ _ _ => trivial)
    rintro _ c s ⟨o', h1, h2, h3⟩
    rw [setOut_outs] at h1; cases h1
    rw [(downBuf_size o p.line).1] at h2
    obtain ⟨r, hr, er⟩ := h2
    rw [er, (coord_at hs hr).1, setOut_setOut] at h3
    unfold atCoord at er
    simp only [Coord.mk.injEq] at er
    exact ⟨p, r, hp, hr, er.2.symm, er.1.symm, h3⟩

/-- What is shown after `clear_screen`: nothing, if all lines below the cursor are blank and the lines
to be scrolled away fit above the window. -/
theorem downBuf_blank {o : OutBuf} {p : Cursor} (hw : RectIn o.window o.glyph.size)
    (hp : InBounds p o.glyph.size)
    (hbelow : ∀ q, InBounds q o.glyph.size → p.line < q.line → o.Blank q)
    (hfit : (p.line : Int) + 1 ≤ 2 * (o.glyph.size.lines - o.height)) (q : Cursor)
    (hq : (downBuf o p.line).Shows q) : (downBuf o p.line).Blank q := by
  obtain ⟨w1, w2, w3, w4, w5, w6⟩ := hw
  have hpl := hp.1
  obtain ⟨hb, h1, h2⟩ := hq
  rw [(downBuf_size o p.line).1] at hb
  rw [(downBuf_size o p.line).2] at h1 h2
  have hqb := hb.1
  have hwb : (downWindow o p.line).bottom = o.window.bottom +
    max (min (p.line + 1 - o.window.top) (o.glyph.size.lines - (o.window.bottom + 1))) 0 := rfl
  have hwt : (downWindow o p.line).top = o.window.top +
    max (min (p.line + 1 - o.window.top) (o.glyph.size.lines - (o.window.bottom + 1))) 0 := rfl
  have hht : o.height = o.window.bottom - o.window.top + 1 := rfl
  unfold OutBuf.Blank downBuf
  dsimp only
  split
  · rename_i hc
    unfold OutBuf.scrollLines
    dsimp only
    by_cases hl : p.line < q.line
    · rw [if_neg (by omega), if_neg (by omega)]
      exact hbelow q hb hl
    · rw [if_neg (by omega), if_pos (by omega)]
  · rename_i hc
    exact hbelow q hb (by omega)

/-- `clear_screen`, when the window is as high as the buffer. -/
theorem does_clearScreen_full (hsp : u.w ' ' = 1) (c0 : Con) (s0 : WinSt) (t : WTerm) (o : OutBuf)
    (ho : c0.outs s0.outH = some o) (hs : SmallSize o.glyph.size)
    (hw : RectIn o.window o.glyph.size) (hne : o.height = o.glyph.size.lines) :
    Does u k (CAt c0 s0) (winClearScreen t)
      (fun _ c s => ∃ r, (r.line : Int) = o.window.top ∧ (r.column : Int) = o.window.left ∧
        CAt (c0.setOut s0.outH ((OutBuf.wiped o t.defAttrs).moved r)) s0 c s)
      (fun _ _ _ => True) := by
  obtain ⟨w1, w2, w3, w4, w5, w6⟩ := hw
  obtain ⟨z1, z2⟩ := id hs
  unfold winClearScreen
  refine Does.getAt (by unfold clearArea moveAbs moveWindow SM.when; intro _; grows_tac) fun a e _ => ?_
  rw [e]
  dsimp only
  refine Does.bind (does_info c0 s0 (fun _ _ _ => trivial) s0.outH) fun i => ?_
  refine Does.assume (by unfold clearArea moveAbs moveWindow SM.when; grows_tac) ?_
  rintro ⟨o', h1, hi⟩
  rw [ho] at h1; cases h1
  obtain ⟨hi1, -, -, -, hi5⟩ := hi
  have hy : i.size.y = o.glyph.size.lines := by rw [hi1]; rfl
  rw [hi5, short_some (n := o.window.bottom - o.window.top) (by omega) (by omega)]
  refine Does.bindPanics (by unfold clearArea moveAbs moveWindow SM.when; intro _; grows_tac)
    fun ht eht => ?_
  cases eht
  rw [short_some (n := o.window.bottom - o.window.top + 1) (by omega) (by omega)]
  refine Does.bindPanics (by unfold clearArea moveAbs moveWindow SM.when; intro _; grows_tac)
    fun ht eht => ?_
  cases eht
  rw [if_pos (by rw [hy]; exact hne), hi1, (wholeCount_eq hs).1]
  refine Does.bindPanics (fun _ => Grows.bind (grows_clearArea _ _ _) fun _ => grows_moveAbs _)
    fun n hn => ?_
  cases hn
  refine Does.bind (Does.mono (does_clearArea hsp c0 s0 t _ _) (fun _ _ h => h) (fun _ _ _ h => h)
    (fun _ _ _ _ => trivial)) fun _ => ?_
  refine Does.at ?_ (grows_moveAbs _)
  rintro c1 s1 ⟨o', h1, -, ⟨q1, rfl⟩, h2⟩
  rw [ho] at h1; cases h1
  refine Does.mono (does_moveAbs _ s1 _) (fun _ _ h => h) ?_ (fun _ _ _ _ => trivial)
  rintro _ c s ⟨o', h3, ⟨r, hr, er⟩, h4⟩
  rw [h2.outH] at h3 h4
  have h3 : (c0.setOut s0.outH _).outs s0.outH = some o' := h3
  rw [setOut_outs] at h3
  cases h3
  rw [er, (coord_at hs hr).1] at h4
  have key := erased_all o t.defAttrs rfl
  rw [(wholeCount_eq hs).2, show OutBuf.moved (OutBuf.erased o t.defAttrs
    (o.glyph.size.columns * o.glyph.size.lines) ⟨0, 0⟩) r = OutBuf.moved (OutBuf.moved (OutBuf.erased o
      t.defAttrs (o.glyph.size.columns * o.glyph.size.lines) ⟨0, 0⟩) ⟨0, 0⟩) r from rfl,
    key, setOut_queue, setOut_setOut] at h4
  unfold atCoord at er
  simp only [Coord.mk.injEq] at er
  refine ⟨r, er.2.symm, er.1.symm, ?_⟩
  obtain ⟨⟨q, rfl⟩, h5⟩ := h4
  exact ⟨⟨q, rfl⟩, h2.trans h5⟩

end Mortal
