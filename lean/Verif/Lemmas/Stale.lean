import Verif.Spec.Stale
import Verif.Lemmas.SessionRun

/-! # Stale cells -/

namespace Mortal
open Spec

/-! ## Safe calls do not depend on the record -/

theorem safeText_wb (u : UEnv) (k : List Cell) : ∀ (s : List Char) (b : Buf),
    SafeText u b s → SafeText u (b.wb k) s
  | [], _, _ => trivial
  | ch :: s, b, h => by
    refine ⟨h.1, h.2.1, fun b' e => ?_⟩
    rw [Buf.writeChar_wb] at e
    cases e1 : b.writeChar u ch with
    | none => rw [e1] at e; cases e
    | some v =>
      obtain ⟨b1, r⟩ := v
      rw [e1] at e
      have e : (b1.wb k, r) = (b', WRes.ok) := Option.some.inj e
      cases e
      exact safeText_wb u k s b1 (h.2.2 b1 e1)

theorem safeOp_wb {u : UEnv} {b : Buf} (k : List Cell) {op : BufOp} (h : SafeOp u b op) :
    SafeOp u (b.wb k) op := by
  cases op with
  | writeChar ch => exact safeText_wb u k _ b h
  | writeStr s => exact safeText_wb u k _ b h
  | writeAt pos s => exact safeText_wb u k _ { b with cursor := pos } h
  | writeStyled fg bg st s => exact safeText_wb u k _ { b with fg := fg, bg := bg, style := st } h
  | writeStyledAt pos fg bg st s =>
    exact safeText_wb u k _ { b with cursor := pos, fg := fg, bg := bg, style := st } h
  | resize s => exact h
  | _ => trivial

/-! ## One refresh -/

/-- The number of a stale cell. -/
def StaleIx (u : UEnv) (s : Scr) (t : Term) (j : Nat) : Prop :=
  s.clear = false ∧ Live u s.buf.buffer j ∧ (∃ c, s.buf.buffer[j]? = some c ∧ s.buf.back[j]? = some c) ∧
    (t.cell (posOf t.size j) = .right ∨ t.cell (posOf t.size j) = .torn)

theorem staleIx_no (u : UEnv) (s : Scr) (t : Term) : NoStale u (StaleIx u s t) s t := by
  intro hc j c hl hx hb hk
  constructor
  · exact fun e => hx ⟨hc, hl, ⟨c, hb, hk⟩, Or.inl e⟩
  · exact fun e => hx ⟨hc, hl, ⟨c, hb, hk⟩, Or.inr e⟩

/-- The stale cells that remain keep the records in order. -/
theorem Base.unshy {u : UEnv} {X : Nat → Prop} {s : Scr} {t : Term} (h : Base u X s t)
    (hX : Shy u X s t) : Base u (fun _ => False) s t :=
  { h with
    bk := by
      intro j c hj hne _
      by_cases hx : X j
      · exact Or.inr (hX j hx).2.2
      · exact h.bk j c hj hne hx }

/-- What a refresh leaves when only cells for one-column characters are stale. -/
theorem refresh_stale {u : UEnv} (hu : SpaceOk u) {env : WEnv} (hdb : DrawDB env) {s : Scr} {t : Term}
    (h : Held u (fun _ => False) s t)
    (hw : ∀ j c, StaleIx u s t j → s.buf.buffer[j]? = some c → c.isWide u = false) {s' : Scr}
    (e : s.refresh u env = .ok s') :
    ∃ new t', s'.w.log = s.w.log ++ new ∧ t.play u new = some t' ∧ After u (StaleIx u s t) s' t' ∧
      s'.buf = { s.buf with back := s'.buf.back } ∧ Shy u (StaleIx u s t) s' t' ∧ Unmarked u s s' := by
  have hm : Held u (StaleIx u s t) s t :=
    { h.toBase.mono (fun _ h => h.elim) with cur := h.cur, inval := h.inval }
  have hX : Shy u (StaleIx u s t) s t := by
    rintro j ⟨h1, h2, ⟨c, h3, h4⟩, h5⟩
    exact ⟨h2, ⟨c, h3, h4, hw j c ⟨h1, h2, ⟨c, h3, h4⟩, h5⟩ h3⟩, h5⟩
  obtain ⟨new, t', q1, q2, q3, q4, -, q6, q7⟩ :=
    (refresh_sync_full hu hdb hm (staleIx_no u s t) (Or.inl hX)).1 s' e
  exact ⟨new, t', q1, q2, q3, q4, q6 hX, q7⟩

/-- What the cells show then. -/
theorem After.faces {u : UEnv} (hu : SpaceOk u) {X : Nat → Prop} {s : Scr} {t : Term} (h : After u X s t)
    (hX : Shy u X s t) {p : Cursor} (hin : InBounds p s.buf.size) :
    (RightHalf u s.buf p → t.cell p = .right) ∧
    (¬ RightHalf u s.buf p → X (numOf s.buf.size p) → t.cell p = .torn) ∧
    (¬ RightHalf u s.buf p → ¬ X (numOf s.buf.size p) → ∀ c, cellAt s.buf p = some c →
      t.cell p = picture u c) := by
  have hpos : posOf t.size (numOf s.buf.size p) = p := by rw [h.size, posOf_numOf' hin]
  refine ⟨fun hr => ?_, fun hr hx => ?_, fun hr hx c hc => h.shows hin hc hx hr⟩
  · obtain ⟨h0, c', h1, h2⟩ := hr
    have hin' : InBounds ⟨p.line, p.column - 1⟩ s.buf.size :=
      ⟨hin.1, by have := hin.2; dsimp only; omega⟩
    have hlive := live_of_wide hu h.torn (j := numOf s.buf.size ⟨p.line, p.column - 1⟩) h1
      (isWide_iff.mpr h2)
    have hx : ¬ X (numOf s.buf.size ⟨p.line, p.column - 1⟩) := by
      intro hx
      obtain ⟨-, ⟨c, q1, -, q3⟩, -⟩ := hX _ hx
      have h1 : s.buf.buffer[numOf s.buf.size ⟨p.line, p.column - 1⟩]? = some c' := h1
      rw [h1, Option.some.injEq] at q1
      subst q1
      rw [isWide_iff.mpr h2] at q3
      cases q3
    have := h.shown _ c' hlive hx h1
    rw [h.size, posOf_numOf' hin'] at this
    have hleft : (t.cell ⟨p.line, p.column - 1⟩).isLeft = true := by
      rw [this]; unfold pic; rw [isWide_iff.mpr h2]; rfl
    obtain ⟨x, d, e⟩ := isLeft_iff.mp hleft
    have := (h.paired.2 _ _ _ _ e).2.2
    have hp : p.column - 1 + 1 = p.column := by omega
    rw [hp] at this
    exact this
  · obtain ⟨h1, ⟨c, h2, -, -⟩, h3⟩ := hX _ hx
    rw [hpos] at h3
    rcases h3 with h3 | h3
    · exfalso
      refine hX.not_right hu h.toBase h1 ?_ (List.getElem?_eq_some_iff.mp h2).1 (by rw [hpos]; exact h3)
      intro j c _ hl hb hx
      exact h.shown j c hl hx hb
    · exact h3

/-! ## Sessions -/

/-- The screen and the terminal are as the description says. -/
structure GCore (u : UEnv) (g : Glass) (s : Scr) (t : Term) : Prop where
  held : Held u (fun _ => False) s t
  same : s.buf = g.b.wb s.buf.back
  seen : ∀ p, InBounds p g.b.size → ∀ c, (g.seen p = some c ∧ c.text ≠ []) ↔
    (s.buf.back[numOf g.b.size p]? = some c ∧ c.text ≠ [])
  face : s.clear = false → ∀ p, InBounds p g.b.size → t.cell p = g.shown p

theorem GCore.buffer {u : UEnv} {g : Glass} {s : Scr} {t : Term} (h : GCore u g s t) :
    s.buf.buffer = g.b.buffer := by rw [h.same]; rfl
theorem GCore.size {u : UEnv} {g : Glass} {s : Scr} {t : Term} (h : GCore u g s t) :
    s.buf.size = g.b.size := by rw [h.same]; rfl

theorem rightHalf_wb {u : UEnv} {b : Buf} {k : List Cell} {p : Cursor} :
    RightHalf u (b.wb k) p ↔ RightHalf u b p := Iff.rfl

theorem GCore.right_iff {u : UEnv} {g : Glass} {s : Scr} {t : Term} (h : GCore u g s t) (p : Cursor) :
    RightHalf u s.buf p ↔ RightHalf u g.b p := by rw [h.same]; exact Iff.rfl

theorem GCore.cell {u : UEnv} {g : Glass} {s : Scr} {t : Term} (h : GCore u g s t) (p : Cursor) :
    cellAt s.buf p = cellAt g.b p := by rw [h.same]; rfl

/-- The stale cells are those of the description. -/
theorem GCore.stale {u : UEnv} {g : Glass} {s : Scr} {t : Term} (h : GCore u g s t) {p : Cursor}
    (hin : InBounds p g.b.size) : StaleIx u s t (numOf g.b.size p) ↔ Stale u g p := by
  have hin' : InBounds p s.buf.size := by rw [h.size]; exact hin
  have hpos : posOf t.size (numOf g.b.size p) = p := by
    rw [h.held.size, h.size, posOf_numOf' hin]
  have hl : Live u s.buf.buffer (numOf g.b.size p) ↔ ¬ RightHalf u g.b p := by
    rw [← h.right_iff, ← h.size]
    exact live_iff h.held.torn hin'
  have hlt : numOf g.b.size p < g.b.buffer.length := by
    rw [← h.buffer, h.held.grid.len, h.size]; exact numOf_lt hin
  have hcell : cellAt g.b p = some g.b.buffer[numOf g.b.size p] := List.getElem?_eq_getElem hlt
  have hne : g.b.buffer[numOf g.b.size p].text ≠ [] := by
    refine h.held.grid.text _ ?_
    rw [h.buffer]; exact List.getElem_mem hlt
  unfold StaleIx Stale
  rw [hpos, hl, h.buffer]
  constructor
  · rintro ⟨h1, h2, ⟨c, h3, h4⟩, h5⟩
    refine ⟨hin, h2, by rw [← h.face h1 p hin]; exact h5, ?_⟩
    have hc : cellAt g.b p = some c := h3
    have hct : c.text ≠ [] := by
      rw [hcell, Option.some.injEq] at hc
      rw [← hc]; exact hne
    rw [hc]
    exact ((h.seen p hin c).mpr ⟨h4, hct⟩).1
  · rintro ⟨-, h2, h3, h4⟩
    have hb := ((h.seen p hin _).mp ⟨h4.trans hcell, hne⟩).1
    have hcl : s.clear = false := by
      cases hc : s.clear with
      | false => rfl
      | true => exact absurd (h.held.inval hc _ (List.mem_of_getElem? hb)) hne
    exact ⟨hcl, h2, ⟨_, hcell, hb⟩, by rw [h.face hcl p hin]; exact h3⟩

open Classical in
/-- A refresh has been made. -/
theorem GCore.refreshed {u : UEnv} (hu : SpaceOk u) {g : Glass} {s s' : Scr} {t t' : Term} (h : GCore u g s t)
    (a1 : After u (StaleIx u s t) s' t') (b1 : s'.buf = { s.buf with back := s'.buf.back })
    (v1 : Shy u (StaleIx u s t) s' t') (w1 : Unmarked u s s') : GCore u (g.refresh u) s' t' := by
  have hsame : s'.buf = g.b.wb s'.buf.back := by rw [b1, h.same]; rfl
  have hbuf : s'.buf.buffer = s.buf.buffer := by rw [b1]
  have hsz : s'.buf.size = g.b.size := by rw [hsame]; rfl
  have hright : ∀ p, RightHalf u s'.buf p ↔ RightHalf u g.b p := fun p => by
    rw [hsame]; exact Iff.rfl
  have hcell : ∀ p, cellAt s'.buf p = cellAt g.b p := fun p => by rw [hsame]; rfl
  refine ⟨{ a1.toBase.unshy v1 with cur := a1.cur, inval := a1.inval }, hsame, ?_, ?_⟩
  · intro p hin c
    have hin : InBounds p g.b.size := hin
    have hin' : InBounds p s'.buf.size := by rw [hsz]; exact hin
    have hlive := live_iff a1.torn hin'
    rw [hright, hsz] at hlive
    show ((if RightHalf u g.b p then g.seen p else cellAt g.b p) = some c ∧ _) ↔
      (s'.buf.back[numOf g.b.size p]? = some c ∧ _)
    by_cases hr : RightHalf u g.b p
    · rw [if_pos hr]
      have hnl : ¬ Live u s.buf.buffer (numOf g.b.size p) := by
        rw [← hbuf]; exact fun hl => hlive.mp hl hr
      rw [w1 _ hnl]
      exact h.seen p hin c
    · rw [if_neg hr]
      have hlt : numOf g.b.size p < s'.buf.buffer.length := by
        rw [a1.grid.len, hsz]; exact numOf_lt hin
      have hc : s'.buf.buffer[numOf g.b.size p]? = some s'.buf.buffer[numOf g.b.size p] :=
        List.getElem?_eq_getElem hlt
      rw [a1.synced _ _ (hlive.mpr hr) hc]
      have : cellAt g.b p = some s'.buf.buffer[numOf g.b.size p] := by
        rw [← hcell]
        show s'.buf.buffer[numOf s'.buf.size p]? = _
        rw [hsz]; exact hc
      rw [this]
  · intro _ p hin
    have hin : InBounds p g.b.size := hin
    have hin' : InBounds p s'.buf.size := by rw [hsz]; exact hin
    obtain ⟨f1, f2, f3⟩ := a1.faces hu v1 hin'
    rw [hright] at f1 f2 f3
    rw [hsz] at f2 f3
    rw [h.stale hin] at f2 f3
    show t'.cell p = if RightHalf u g.b p then .right else if Stale u g p then .torn
      else ((cellAt g.b p).map (picture u)).getD .torn
    by_cases hr : RightHalf u g.b p
    · rw [if_pos hr]; exact f1 hr
    · rw [if_neg hr]
      by_cases hs : Stale u g p
      · rw [if_pos hs]; exact f2 hr hs
      · rw [if_neg hs]
        have hlt : numOf s'.buf.size p < s'.buf.buffer.length := by
          rw [a1.grid.len]; exact numOf_lt hin'
        have hc : cellAt s'.buf p = some s'.buf.buffer[numOf s'.buf.size p] :=
          List.getElem?_eq_getElem hlt
        have := f3 hr hs _ hc
        rw [← hcell, hc]
        exact this

/-- The stale cells hold one-column characters. -/
theorem GCore.thin {u : UEnv} {g : Glass} {s : Scr} {t : Term} (h : GCore u g s t)
    (hst : ∀ p c, Stale u g p → cellAt g.b p = some c → ¬ HoldsWide u c) (j : Nat) (c : Cell)
    (hj : StaleIx u s t j) (hc : s.buf.buffer[j]? = some c) : c.isWide u = false := by
  have hgs : GoodSize g.b.size := by rw [← h.size]; exact h.held.grid.size
  have hlt : j < g.b.size.lines * g.b.size.columns := by
    rw [← h.size, ← h.held.grid.len]; exact (List.getElem?_eq_some_iff.mp hc).1
  have hin : InBounds (posOf g.b.size j) g.b.size := (inBounds_posOf hgs).mpr hlt
  have hst' := (h.stale hin).mp (by rw [numOf_posOf']; exact hj)
  have hcc : cellAt g.b (posOf g.b.size j) = some c := by
    show g.b.buffer[numOf g.b.size (posOf g.b.size j)]? = _
    rw [numOf_posOf', ← h.buffer]; exact hc
  have := hst _ c hst' hcc
  cases hw : c.isWide u with
  | false => rfl
  | true => exact absurd (isWide_iff.mp hw) this

/-- A drawing call has been made. -/
theorem GCore.draw {u : UEnv} (hT : TableOk u) {g : Glass} {s : Scr} {t : Term} (h : GCore u g s t)
    {op : BufOp} (hop : ∀ z, op ≠ .resize z) (hs : SafeOp u g.b op) (hm : ThinMarks u (opText op)) {b : Buf}
    (e1 : op.run u s.buf = some b) :
    ∃ b', op.run u g.b = some b' ∧ GCore u { g with b := b' } { s with buf := b } t := by
  have hh := h.held.draw hT hop (by rw [h.same]; exact safeOp_wb _ hs) hm e1
  have e1' := e1
  rw [h.same, op_wb u _ op hop] at e1'
  cases e3 : op.run u g.b with
  | none => rw [e3] at e1'; cases e1'
  | some b' =>
    rw [e3] at e1'
    have e1' : b'.wb s.buf.back = b := Option.some.inj e1'
    subst e1'
    have hz : b'.size = g.b.size := by
      have q1 : t.size = b'.size := hh.size
      rw [← q1, h.held.size, h.size]
    refine ⟨b', rfl, hh, rfl, ?_, ?_⟩
    · intro p hin c
      have hin : InBounds p b'.size := hin
      show (g.seen p = some c ∧ _) ↔ (s.buf.back[numOf b'.size p]? = some c ∧ _)
      rw [hz] at hin ⊢
      exact h.seen p hin c
    · intro hc p hin
      have hin : InBounds p b'.size := hin
      rw [hz] at hin
      exact h.face hc p hin

/-- The size has changed. -/
theorem gcore_resized {u : UEnv} {s : Scr} {t : Term} (h : Held u (fun _ => False) s t)
    (hc : s.clear = true) {b' : Buf} (hb : s.buf = b'.wb s.buf.back) (sh : Cursor → TCell) :
    GCore u ⟨b', sh, fun _ => none⟩ s t := by
  refine ⟨h, hb, ?_, ?_⟩
  · intro p hin c
    constructor
    · rintro ⟨q, -⟩; cases q
    · rintro ⟨q1, q2⟩
      exact absurd (h.inval hc _ (List.mem_of_getElem? q1)) q2
  · rw [hc]; intro e; cases e

/-- A new screen. -/
theorem gcore_new {u : UEnv} {z : Size} {s : Scr} {t : Term} (h : Held u (fun _ => False) s t)
    (hb : s.buf = Buf.new z) (ht : ∀ p, t.cell p = .narrow [' '] .plain) : GCore u (Glass.new z) s t := by
  refine ⟨h, by rw [hb]; rfl, fun p hin c => ?_, fun _ p _ => ht p⟩
  have hlt : numOf z p < (Buf.new z).back.length := by
    show _ < (List.replicate _ _).length
    rw [List.length_replicate]; exact numOf_lt hin
  have : (Buf.new z).back[numOf z p]? = some Cell.default := by
    rw [List.getElem?_eq_getElem hlt, Option.some.injEq]
    exact List.eq_of_mem_replicate (List.getElem_mem hlt)
  show (some Cell.default = some c ∧ _) ↔ (s.buf.back[numOf z p]? = some c ∧ _)
  rw [hb, this]

/-- Every place of the screen has a content. -/
theorem GCore.some_cell {u : UEnv} {g : Glass} {s : Scr} {t : Term} (h : GCore u g s t) {p : Cursor}
    (hin : InBounds p g.b.size) : ∃ c, cellAt g.b p = some c := by
  have hlt : numOf g.b.size p < g.b.buffer.length := by
    rw [← h.buffer, h.held.grid.len, h.size]; exact numOf_lt hin
  exact ⟨_, List.getElem?_eq_getElem hlt⟩

/-- The session looks as the description says. -/
structure GInv (u : UEnv) (env : WEnv) (g : Glass) (x : Sess) : Prop extends GCore u g x.s x.t where
  dlv : Delivered env x.s.w

theorem GInv.refreshed {u : UEnv} (hT : TableOk u) {env : WEnv} (hdb : DrawDB env) {g : Glass} {x : Sess}
    (h : GInv u env g x) (hst : ∀ p c, Stale u g p → cellAt g.b p = some c → ¬ HoldsWide u c) {s' : Scr}
    (e1 : x.s.refresh u env = .ok s') : ∃ new t', s'.w.log = x.s.w.log ++ new ∧ x.t.play u new = some t' ∧
      After u (StaleIx u x.s x.t) s' t' ∧ GInv u env (g.refresh u) ⟨s', t'⟩ := by
  have hfine := fine_refresh (u := u) (env := env) (b := x.s.buf) (s := x.s)
    ⟨h.dlv, h.held.grid, rfl⟩
  rw [e1] at hfine
  obtain ⟨new, t', l1, p1, a1, b1, v1, w1⟩ := refresh_stale hT.space hdb h.held (h.toGCore.thin hst) e1
  exact ⟨new, t', l1, p1, a1, h.toGCore.refreshed hT.space a1 b1 v1 w1, hfine.dlv⟩

theorem GInv.step {u : UEnv} (hT : TableOk u) {env : WEnv} (hdb : DrawDB env) {g : Glass}
    {x x' : Sess} (h : GInv u env g x) {st : SStep} (hst : TameStep u g st)
    (e : st.run u env x = some (true, x')) : ∃ g', g.step u st = some g' ∧ GInv u env g' x' := by
  cases st with
  | draw op =>
    obtain ⟨hop, hs, hm⟩ := hst
    simp only [SStep.run, Option.map_eq_some_iff] at e
    obtain ⟨b, e1, e2⟩ := e
    cases e2
    obtain ⟨b', q1, q2⟩ := h.toGCore.draw hT hop hs hm e1
    exact ⟨{ g with b := b' }, by simp [Glass.step, q1], q2, h.dlv⟩
  | resized z cell cur =>
    obtain ⟨hz, hs, hp⟩ := hst
    simp only [SStep.run, Option.map_eq_some_iff] at e
    obtain ⟨d, e1, e2⟩ := e
    cases e2
    obtain ⟨g1, g2⟩ := h.held.resized hT hz (by rw [h.same]; exact safeOp_wb _ hs) hp (cur := cur) e1
    unfold SData.updateSize at e1
    cases e3 : x.s.buf.resize z with
    | none => rw [e3] at e1; cases e1
    | some b' =>
      rw [e3] at e1
      have e1 : _ = d := Option.some.inj e1
      have hd : d.buf = b' := by rw [← e1]
      have e4 : (BufOp.resize z).run u g.b = some b' := by
        have : (BufOp.resize z).run u x.s.buf = some b' := e3
        rw [h.same, resize_wb] at this
        exact this
      exact ⟨⟨b', fun _ => .narrow [' '] .plain, fun _ => none⟩, by simp [Glass.step, e4],
        gcore_resized g1 g2 (by show d.buf = b'.wb d.buf.back; rw [hd]; rfl) _, h.dlv⟩
  | refresh =>
    have hst : ∀ p c, Stale u g p → cellAt g.b p = some c → ¬ HoldsWide u c := hst
    simp only [SStep.run] at e
    cases e1 : x.s.refresh u env with
    | stop y => rw [e1] at e; cases e
    | err e2 s' =>
      rw [e1] at e
      dsimp only at e
      rw [Option.map_eq_some_iff] at e
      obtain ⟨_, _, e3⟩ := e
      cases e3
    | ok s' =>
      rw [e1] at e
      obtain ⟨new, t', l1, p1, -, q1⟩ := h.refreshed hT hdb hst e1
      dsimp only at e
      rw [l1, drop_append_length, p1, Option.map_some, Option.some.injEq, Prod.mk.injEq] at e
      obtain ⟨-, rfl⟩ := e
      exact ⟨g.refresh u, rfl, q1⟩

theorem ginv_run {u : UEnv} (hT : TableOk u) {env : WEnv} (hdb : DrawDB env) :
    ∀ (steps : List SStep) (g : Glass) (x y : Sess) (rs : List Bool), GInv u env g x →
      TameRun u g steps → runS u env steps x = some (rs, y) → (∀ r ∈ rs, r = true) →
      ∃ g', g.run u steps = some g' ∧ GInv u env g' y := by
  intro steps
  induction steps with
  | nil =>
    intro g x y rs h _ e _
    simp only [runS, Option.some.injEq, Prod.mk.injEq] at e
    obtain ⟨rfl, rfl⟩ := e
    exact ⟨g, rfl, h⟩
  | cons st steps ih =>
    intro g x y rs h hs e hr
    rw [runS] at e
    cases e1 : st.run u env x with
    | none => rw [e1] at e; cases e
    | some v =>
      obtain ⟨r, x'⟩ := v
      rw [e1] at e
      dsimp only at e
      rw [Option.map_eq_some_iff] at e
      obtain ⟨⟨l, y'⟩, e2, e3⟩ := e
      cases e3
      have hr1 : r = true := hr r (List.mem_cons_self ..)
      subst hr1
      obtain ⟨g1, q1, q2⟩ := h.step hT hdb hs.1 e1
      obtain ⟨g2, q3, q4⟩ := ih g1 x' y' l q2 (hs.2 g1 q1) e2 (fun r' h' => hr r' (List.mem_cons_of_mem _ h'))
      exact ⟨g2, by rw [Glass.run, q1]; exact q3, q4⟩

theorem opened_ginv {u : UEnv} (hT : TableOk u) {env : WEnv} (hdb : DrawDB env) {z : Size}
    (hz : ScreenSize z) {x : Sess} (h : Opened u env z x) : GInv u env (Glass.new z) x := by
  obtain ⟨h1, ⟨bc, h2⟩, h3, h4⟩ := opened_start hT hdb hz h
  exact ⟨gcore_new h1 (congrArg SData.buf h4) (fun p => by rw [h2]; rfl), h3⟩

theorem glass_append (u : UEnv) : ∀ (a b : List SStep) (g : Glass),
    g.run u (a ++ b) = (g.run u a).bind fun g' => g'.run u b
  | [], _, _ => rfl
  | st :: a, b, g => by
    rw [List.cons_append, Glass.run, Glass.run]
    cases g.step u st with
    | none => rfl
    | some g1 => exact glass_append u a b g1

theorem tame_split {u : UEnv} : ∀ (a b : List SStep) (g : Glass), TameRun u g (a ++ b) →
    TameRun u g a ∧ ∀ g', g.run u a = some g' → TameRun u g' b := by
  intro a
  induction a with
  | nil => intro b g h; exact ⟨trivial, fun g' e => by cases e; exact h⟩
  | cons st a ih =>
    intro b g h
    refine ⟨⟨h.1, fun g' e => (ih b g' (h.2 g' e)).1⟩, fun g' e => ?_⟩
    rw [Glass.run] at e
    cases e1 : g.step u st with
    | none => rw [e1] at e; cases e
    | some g1 =>
      rw [e1] at e
      exact (ih b g1 (h.2 _ e1)).2 g' e

/-- The content of the description is the content asked for. -/
theorem glass_content (u : UEnv) : ∀ (steps : List SStep) (g g' : Glass), g.run u steps = some g' →
    runOps u (steps.filterMap SStep.asOp) g.b = some g'.b := by
  intro steps
  induction steps with
  | nil => intro g g' e; cases e; rfl
  | cons st steps ih =>
    intro g g' e
    rw [Glass.run] at e
    cases e1 : g.step u st with
    | none => rw [e1] at e; cases e
    | some g1 =>
      rw [e1] at e
      have hi := ih g1 g' e
      cases st with
      | draw op =>
        simp only [Glass.step, Option.map_eq_some_iff] at e1
        obtain ⟨b, q1, rfl⟩ := e1
        simp only [List.filterMap_cons, SStep.asOp]
        rw [runOps, q1]
        exact hi
      | refresh =>
        cases e1
        exact hi
      | resized z cell cur =>
        simp only [Glass.step, Option.map_eq_some_iff] at e1
        obtain ⟨b, q1, rfl⟩ := e1
        simp only [List.filterMap_cons, SStep.asOp]
        rw [runOps, q1]
        exact hi

/-- What the last refresh of such a session leaves. -/
theorem glass_end {u : UEnv} (hT : TableOk u) {env : WEnv} (hdb : DrawDB env) {z : Size}
    (hz : ScreenSize z) {x y : Sess} (hx : Opened u env z x) {steps : List SStep}
    (hs : TameRun u (Glass.new z) (steps ++ [.refresh])) {rs : List Bool} (hr : ∀ r ∈ rs, r = true)
    (h : runS u env (steps ++ [.refresh]) x = some (rs ++ [true], y)) :
    ∃ g X, (Glass.new z).run u steps = some g ∧ After u X y.s y.t ∧ GInv u env (g.refresh u) y ∧
      y.s.w.pending = [] := by
  obtain ⟨x', e1, e2⟩ := refresh_last h
  obtain ⟨s1, s2⟩ := tame_split _ _ _ hs
  obtain ⟨g, q1, q2⟩ := ginv_run hT hdb steps _ x x' rs (opened_ginv hT hdb hz hx) s1 e1 hr
  obtain ⟨f1, f2⟩ := refresh_done e2
  obtain ⟨new, t', l1, p1, a1, g1⟩ := q2.refreshed hT hdb (s2 g q1).1 f1
  rw [l1, drop_append_length, p1, Option.some.injEq] at f2
  rw [f2] at a1 g1
  exact ⟨g, _, q1, a1, g1, refresh_pending f1⟩

end Mortal
