import Verif.Lemmas.WinShow
import Verif.Lemmas.SessionRun
import Verif.Spec.WinShow

/-! # Sessions of screens on a Windows console -/

namespace Mortal
open Spec

variable {u : UEnv} {wt : WTerm}

/-- Between the steps of a session; `N` tells that no two-column characters are drawn. -/
def WSInv (u : UEnv) (wt : WTerm) (N : Prop) (x : WSess) : Prop :=
  ∃ t o, Held u noCell (gscr x.s) t ∧ Rep wt x.s x.c t o ∧
    (x.s.clear = false → ∀ p, InBounds p t.size → t.cell p ≠ .torn) ∧
    (N → (x.s.clear = true ∨ AllNarrow t) ∧ NoWide u x.s.buf)

theorem bare_right {c : TCell} : c.bare = .right ↔ c = .right := by
  cases c <;> simp [TCell.bare]

theorem wnoReveal_stale {x : WSess} {t : Term} {o : OutBuf} (h : Held u noCell (gscr x.s) t)
    (hr : Rep wt x.s x.c t o)
    (hwh : x.s.clear = false → ∀ p, InBounds p t.size → t.cell p ≠ .torn) (hn : WNoReveal u x) :
    NoStale u noCell (gscr x.s) t := by
  intro hc j c hl _ hb hk
  have hg : o.glyph = t.bare := hr.rel.glyph
  have hsz : t.size = x.s.buf.size := h.size
  have hlt : j < x.s.buf.size.lines * x.s.buf.size.columns := by
    have := h.grid.len
    have this : x.s.buf.buffer.length = _ := this
    rw [← show x.s.buf.buffer.length = x.s.buf.size.lines * x.s.buf.size.columns from this]
    exact (List.getElem?_eq_some_iff.mp hb).1
  have hin : InBounds (posOf x.s.buf.size j) x.s.buf.size :=
    (inBounds_posOf h.grid.size).mpr hlt
  rw [hsz]
  have hin' : InBounds (posOf x.s.buf.size j) t.size := by rw [hsz]; exact hin
  refine ⟨fun e => ?_, hwh hc _ hin'⟩
  have hnr : ¬ RightHalf u x.s.buf (posOf x.s.buf.size j) :=
    (live_iff (b := x.s.buf) h.torn hin).mp (by rw [numOf_posOf']; exact hl)
  have := hn hc o hr.out (posOf x.s.buf.size j) (by rw [hg]; exact hin')
    (by rw [hg]; exact bare_right.mpr e) hnr
  rw [numOf_posOf'] at this
  apply this
  have hk : x.s.buf.back[j]? = some c := hk
  have hb : x.s.buf.buffer[j]? = some c := hb
  rw [hk, ← hb]
  show x.s.buf.buffer[numOf x.s.buf.size (posOf x.s.buf.size j)]? = _
  rw [numOf_posOf']

/-- Give the characters attributes. -/
def dress : TCell Unit → TCell
  | .narrow x _ => .narrow x .plain
  | .left x _ => .left x .plain
  | .right => .right
  | .torn => .torn

theorem bare_dress (c : TCell Unit) : (dress c).bare = c := by cases c <;> rfl

theorem dress_right {c : TCell Unit} : dress c = .right ↔ c = .right := by
  cases c <;> simp [dress]

theorem dress_left {c : TCell Unit} {x : List Char} {d : DevAttrs} (h : dress c = .left x d) :
    c = .left x () := by
  cases c <;> simp [dress] at h
  rw [h.1]

/-- The part of a step that is about the buffer alone. -/
def Carries (u : UEnv) (st : WinStep) (b : Buf) (y : WSess) : Prop :=
  match st.asOp with
  | none => y.s.buf = b.wb y.s.buf.back
  | some op => ∃ b1, op.run u b = some b1 ∧ y.s.buf = b1.wb y.s.buf.back

/-- The size of the console changes. -/
theorem resized_step (hT : TableOk u) {X : Nat → Prop} {x y : WSess} {t : Term} {o : OutBuf}
    (h1 : Held u X (gscr x.s) t) (h2 : Rep wt x.s x.c t o) {z : Size} {o' : OutBuf}
    (hs : SafeOp u x.s.buf (.resize z)) (hw : WNarrow u (.resized z o'))
    (e : (WinStep.resized z o').To u wt x y) :
    ∃ t', Held u noCell (gscr y.s) t' ∧ Rep wt y.s y.c t' o' ∧ y.s.clear = true ∧
      (NoWide u x.s.buf → NoWide u y.s.buf) ∧
      ∀ b : Buf, x.s.buf = b.wb x.s.buf.back → Carries u (.resized z o') b y := by
  obtain ⟨e1, e2, e3, o0, e4, e5, e6⟩ := e
  obtain ⟨⟨hz1, hz2, hz3⟩, hp, hw1, hw2, hw3⟩ := hw
  rw [e3] at hz1 hz2 hz3
  obtain ⟨u1, u2⟩ := wsUpdateSize_ok e1
  have ho : o0 = o := by
    have := e4.symm.trans h2.out
    exact Option.some.inj this
  subst ho
  have hz : ScreenSize z := ⟨hz1, by omega, by omega⟩
  have hpair : Term.Paired { size := z, cell := fun q => dress (o'.glyph.cell q), cur := none, last := none, attrs := .plain } := by
    refine ⟨fun l c e => ?_, fun l c a d e => ?_⟩
    · obtain ⟨q1, a, d, q2⟩ := hp.1 l c (dress_right.mp e)
      exact ⟨q1, a, .plain, by show dress _ = _; rw [q2]; rfl⟩
    · obtain ⟨q1, q2, q3⟩ := hp.2 l c a () (dress_left e)
      exact ⟨by rw [← e3]; exact q1, by rw [← e3]; exact q2, dress_right.mpr q3⟩
  obtain ⟨g1, g2⟩ := h1.resized hT hz hs hpair (cur := o'.glyph.cur) u1
  let t' : Term := { size := z, cell := fun q => dress (o'.glyph.cell q), cur := o'.glyph.cur,
                     last := o'.glyph.last, attrs := t.attrs, bce := o'.glyph.bce }
  have hcl : y.s.clear = true := g2
  have hta : t'.attrs = view y.s.w.theme := by rw [u2]; exact h2.attrs
  have hbase : Base u noCell (gscr y.s) t' := g1.toBase.keep rfl (gw_lk hta) rfl rfl
  refine ⟨t', { hbase with cur := ?_, inval := g1.inval }, ⟨?_, ?_, hta, ⟨hz2, hz3⟩, fun _ => ⟨hw1, hw2, hw3⟩, ⟨?_, ?_, ?_, ?_, ?_⟩⟩, hcl, ?_, ?_⟩
  · intro e
    have e : y.s.clear = false := e
    rw [hcl] at e; cases e
  · rw [e2, u2]; exact setOut_outs _ _ _
  · rw [e2, u2]; exact h2.active
  · have : t'.bare = { o'.glyph with size := z, cell := fun q => (dress (o'.glyph.cell q)).bare } := by
      unfold Term.bare; rfl
    rw [this]
    simp only [bare_dress]
    rw [← e3]
  · rw [e5, u2]; exact h2.rel.word
  · rw [e6]; exact h2.rel.pend
  · rw [hcl]; intro e; cases e
  · rw [hcl]; intro e; cases e
  · intro n
    have u1 : x.s.toSData.updateSize z = some y.s.toSData := u1
    unfold SData.updateSize at u1
    cases e3 : x.s.buf.resize z with
    | none => rw [e3] at u1; cases u1
    | some b' =>
      rw [e3] at u1
      have u1 : _ = y.s.toSData := Option.some.inj u1
      rw [← u1]
      refine resize_cells h1.grid hz.1 e3 ?_ n
      exact not_wide_of_head_space hT.space rfl
  · intro b hb
    show ∃ b1, _
    unfold SData.updateSize at u1
    cases e3 : x.s.buf.resize z with
    | none => rw [e3] at u1; cases u1
    | some b' =>
      rw [e3] at u1
      have u1 : _ = y.s.toSData := Option.some.inj u1
      rw [hb] at e3
      refine ⟨b', e3, ?_⟩
      rw [← u1]
      rfl

theorem wsinv_step (hT : TableOk u) {N : Prop} {x y : WSess} (h : WSInv u wt N x) {st : WinStep}
    (hw : WWide u x st) (hN : N → WNarrow u st) (e : st.To u wt x y) :
    WSInv u wt N y ∧ ∀ b : Buf, x.s.buf = b.wb x.s.buf.back → Carries u st b y := by
  obtain ⟨t, o, h1, h2, h3, h4⟩ := h
  cases st with
  | draw op =>
    obtain ⟨b', e1, rfl⟩ := e
    obtain ⟨hop, hs, hm⟩ := hw
    refine ⟨⟨t, o, h1.draw hT hop hs hm e1, ⟨h2.out, h2.active, h2.attrs, h2.small, h2.full, h2.rel⟩,
      h3, fun n => ⟨(h4 n).1, noWide_draw hT hop (hN n).2.1 h1.grid (h4 n).2 e1⟩⟩, fun b hb => ?_⟩
    show ∃ b1, _
    rw [hb, op_wb u _ op hop, Option.map_eq_some_iff] at e1
    obtain ⟨b1, q1, q2⟩ := e1
    refine ⟨b1, q1, ?_⟩
    show b' = b1.wb b'.back
    rw [← q2]; rfl
  | refresh =>
    obtain ⟨e1, D, e2, e3, e4⟩ := e
    obtain ⟨c', p1, t', o', q1, q2, q3, q4⟩ := leads_refresh hT.space h1
      (wnoReveal_stale h1 h2 h3 hw) (Or.inl fun _ h => h) h2 () y.s D e1 e2 e3
    rw [e4, Option.some.injEq] at p1
    subst p1
    refine ⟨⟨t', o', q1.toHeld, q2, fun _ p hp => q1.whole hT.space p hp, fun n => ⟨Or.inr (q4 (h4 n).1 (h4 n).2), ?_⟩⟩, fun b hb => ?_⟩
    · unfold NoWide
      rw [q3]; exact (h4 n).2
    · show y.s.buf = b.wb y.s.buf.back
      rw [q3, hb]; rfl
  | other =>
    obtain ⟨e1, e2, e3, e4, e5⟩ := e
    have hg : gscr y.s = gscr x.s := by unfold gscr; rw [e1, e3]
    have hc : y.s.clear = x.s.clear := congrArg SData.clear e1
    have hb : y.s.buf = x.s.buf := congrArg SData.buf e1
    refine ⟨⟨t, o, hg ▸ h1, ⟨by rw [e2, e5]; exact h2.out, by rw [e4, e2]; exact h2.active,
      by rw [e3]; exact h2.attrs, h2.small, by rw [hc]; exact h2.full, by rw [e3, hc]; exact h2.rel⟩,
      by rw [hc]; exact h3, by rw [hc, hb]; exact h4⟩, fun b hb' => ?_⟩
    show y.s.buf = b.wb y.s.buf.back
    rw [hb]; exact hb'
  | resized z o' =>
    obtain ⟨hs, hw⟩ := hw
    obtain ⟨t', g1, g2, g3, g4, g5⟩ := resized_step hT h1 h2 hs hw e
    refine ⟨⟨t', o', g1, g2, ?_, fun n => ⟨Or.inl g3, g4 (h4 n).2⟩⟩, g5⟩
    rw [g3]; intro e; cases e

/-- Steps without two-column characters meet the conditions of the others. -/
theorem wnarrow_wide (hT : TableOk u) {N : Prop} (n : N) {x y : WSess} (h : WSInv u wt N x)
    {st : WinStep} (hN : WNarrow u st) (e : st.To u wt x y) : WWide u x st := by
  obtain ⟨t, o, h1, h2, h3, h4⟩ := h
  obtain ⟨n1, n2⟩ := h4 n
  cases st with
  | draw op =>
    obtain ⟨hop, hs, hm⟩ := hN
    exact ⟨hop, safeOp_narrow hT hop hs h1.grid.size.2.1, hm⟩
  | other => trivial
  | refresh =>
    intro hc o' ho p hp hr _
    have ho : o' = o := Option.some.inj (ho.symm.trans h2.out)
    rw [ho, h2.rel.glyph] at hr
    have hr := bare_right.mp hr
    rcases n1 with n1 | n1
    · rw [hc] at n1; cases n1
    · obtain ⟨a, d, e⟩ := n1 p
      rw [e] at hr; cases hr
  | resized z o' =>
    refine ⟨⟨?_, fun c cell _ _ hc hw => ?_⟩, hN⟩
    · have := e.2.2.1
      rw [← this]; exact hN.1.1
    · have := n2 cell (List.mem_of_getElem? hc)
      rw [isWide_iff.mpr hw] at this
      cases this

theorem wsinv_run (hT : TableOk u) {N : Prop} : ∀ (steps : List WinStep) (x y : WSess) (b : Buf),
    WSInv u wt N x → x.s.buf = b.wb x.s.buf.back →
    (WWideRun u wt x steps ∨ N) → (N → ∀ st ∈ steps, WNarrow u st) →
    WinStep.Path u wt steps x y →
    WSInv u wt N y ∧ ∃ b', runOps u (steps.filterMap WinStep.asOp) b = some b' ∧
      y.s.buf = b'.wb y.s.buf.back := by
  intro steps
  induction steps with
  | nil =>
    intro x y b h hb _ _ e
    cases e
    exact ⟨h, b, rfl, hb⟩
  | cons st steps ih =>
    rintro x y b h hb hw hN ⟨x', e1, e2⟩
    have hst : WWide u x st := by
      rcases hw with hw | n
      · exact hw.1
      · exact wnarrow_wide hT n h (hN n st (List.mem_cons_self ..)) e1
    obtain ⟨h', hc⟩ := wsinv_step hT h hst (fun n => hN n st (List.mem_cons_self ..)) e1
    have hc := hc b hb
    have hw' : WWideRun u wt x' steps ∨ N := hw.imp (fun hw => hw.2 x' e1) id
    have hN' : N → ∀ st ∈ steps, WNarrow u st := fun n s hs => hN n s (List.mem_cons_of_mem _ hs)
    unfold Carries at hc
    cases ha : st.asOp with
    | none =>
      rw [ha] at hc
      rw [List.filterMap_cons_none ha]
      exact ih x' y b h' hc hw' hN' e2
    | some op =>
      rw [ha] at hc
      obtain ⟨b1, q1, q2⟩ := hc
      rw [List.filterMap_cons_some ha]
      obtain ⟨r1, b', r2, r3⟩ := ih x' y b1 h' q2 hw' hN' e2
      refine ⟨r1, b', ?_, r3⟩
      show (op.run u b).bind _ = _
      rw [q1]; exact r2

/-- A screen that has just been opened is in order. -/
theorem wopened_start (hT : TableOk u) {cfg : PrepareConfig} {z : Size} (hz : ConSize z) {x : WSess}
    (h : WOpened u wt cfg z x) : x.s.buf = Buf.new z ∧
    x.s.clear = false ∧ Held u noCell (gscr x.s) { Term.blank z with bce := true } ∧
    ∃ o, Rep wt x.s x.c { Term.blank z with bce := true } o := by
  obtain ⟨c0, s0, old, oa, oz, D, h1, h2, h3, h4, h5, h6, h7, h8, h9, h10⟩ := h
  obtain ⟨c', g1, -, -, j, oa', oz', -, g2, g3, g4, g5⟩ := (does_screenNew c0 s0 wt cfg h1).ok s0 c0 (CAt.refl c0 s0) _ _ _ h7 h8 h9
  rw [h10, Option.some.injEq] at g1
  subst g1
  rw [h3, Option.some.injEq] at g2
  subst g2
  rw [h5, Option.some.injEq] at g3
  subst g3
  rw [h6] at g4 g5
  have g4 : x.s.toSData = SData.new z := g4
  obtain ⟨⟨q, hq⟩, hst⟩ := g5
  have ho : x.s.w.outH = j := hst.outH
  have hth : x.s.w.theme = plainTheme := hst.theme.trans h2
  have hb : x.s.buf = Buf.new z := congrArg SData.buf g4
  have hc : x.s.clear = false := congrArg SData.clear g4
  have hs : ScreenSize z := ⟨hz.1, by have := hz.2.1; omega, by have := hz.2.2; omega⟩
  have hta : (Term.blank z).attrs = view x.s.w.theme := by rw [hth]; rfl
  refine ⟨hb, hc, held_start hT hs g4 rfl (gw_lk hta), enteredOut oa z, ⟨?_, ?_, hta, hz.2, ?_, ⟨?_, ?_, rfl, ?_, ?_⟩⟩⟩
  · rw [hq, ho]; exact setOut_outs _ _ _
  · rw [hq, ho]; rfl
  · rw [hc]; intro e; cases e
  · unfold enteredOut screenOut OutBuf.resize OutBuf.fresh Term.bare Term.blank
    dsimp only
    rw [if_pos (show InBounds ⟨0, 0⟩ z from ⟨hz.1.1, hz.1.2.1⟩)]
    simp only [ite_self]
    rfl
  · rw [hth]
    exact h4.trans (themeWord_plain wt).symm
  · rintro - q a d hq
    refine ⟨plainTheme, ?_, ?_⟩
    · rcases hq with hq | hq
      · have hq : TCell.narrow [' '] DevAttrs.plain = .narrow a d := hq
        cases hq
        rfl
      · have hq : TCell.narrow [' '] DevAttrs.plain = .left a d := hq
        cases hq
    · show (if _ then oa.word else oa.word) = _
      rw [ite_self]
      exact h4.trans (themeWord_plain wt).symm
  · rintro - q a d - hq
    have hq : TCell.narrow [' '] DevAttrs.plain = .right := hq
    cases hq

theorem wopened_inv (hT : TableOk u) {cfg : PrepareConfig} {z : Size} (hz : ConSize z) {x : WSess}
    (h : WOpened u wt cfg z x) {N : Prop} : WSInv u wt N x ∧ x.s.buf = Buf.new z := by
  obtain ⟨hb, hc, h1, o, h2⟩ := wopened_start hT hz h
  refine ⟨⟨_, o, h1, h2, ?_, ?_⟩, hb⟩
  · rintro - p - e
    have hq : TCell.narrow [' '] DevAttrs.plain = .torn := e
    cases hq
  · intro _
    refine ⟨Or.inr fun q => ⟨_, _, rfl⟩, ?_⟩
    intro c hcm
    rw [hb] at hcm
    rw [show c = Cell.default from List.eq_of_mem_replicate hcm]
    exact not_wide_of_head_space hT.space rfl

theorem path_append : ∀ (a b : List WinStep) (x y : WSess), WinStep.Path u wt (a ++ b) x y →
    ∃ x', WinStep.Path u wt a x x' ∧ WinStep.Path u wt b x' y
  | [], b, x, y, h => ⟨x, rfl, h⟩
  | st :: a, b, x, y, ⟨x1, h1, h2⟩ => by
    obtain ⟨x', g1, g2⟩ := path_append a b x1 y h2
    exact ⟨x', ⟨x1, h1, g1⟩, g2⟩

theorem wwide_append : ∀ (a b : List WinStep) (x : WSess), WWideRun u wt x (a ++ b) →
    WWideRun u wt x a ∧ ∀ x', WinStep.Path u wt a x x' → WWideRun u wt x' b
  | [], b, x, h => ⟨trivial, fun x' e => by cases e; exact h⟩
  | st :: a, b, x, ⟨h1, h2⟩ =>
    ⟨⟨h1, fun x' e => (wwide_append a b x' (h2 x' e)).1⟩,
      fun _ ⟨x1, e1, e2⟩ => (wwide_append a b x1 (h2 x1 e1)).2 _ e2⟩

theorem dressed_iff {th : Theme} {c : Cell} (h : view th = view ⟨c.fg, c.bg, c.style⟩)
    {w : BitVec 16} (hw : w = themeWord wt th) : Dressed wt.defAttrs w c := by
  unfold Dressed
  rw [hw, view_look h, themeWord, look_attrWord]

/-- What a refresh leaves on the console. -/
theorem conShows_after (hu : SpaceOk u) {x : WSess} {t : Term} {o : OutBuf}
    (h : After u noCell (gscr x.s) t) (hr : Rep wt x.s x.c t o) :
    ConShows u wt.defAttrs o x.s.buf ∧ o.word = wt.defAttrs ∧
    (¬ RightHalf u x.s.buf (target x.s.buf) → o.glyph.cur = some (target x.s.buf)) := by
  have hd : Displays u t x.s.buf := h.displays hu
  have hc : x.s.clear = false := h.noClear
  have hg := hr.rel.glyph
  have hcell : ∀ q, o.glyph.cell q = (t.cell q).bare := fun q => by rw [hg]; rfl
  have hth : x.s.w.theme = plainTheme := by
    have := h.plain
    have this : (gw x.s.w.theme).theme = plainTheme := this
    rwa [gw_theme] at this
  refine ⟨⟨?_, fun p c hin hcp => ⟨fun hnr => ?_, fun hrh => ?_⟩⟩, ?_, fun hn => ?_⟩
  · rw [hg]; exact hd.1
  · have := hd.2 p c hin hcp
    rw [if_neg hnr] at this
    unfold picture at this
    rw [hcell]
    unfold glyphOf
    split at this
    · rename_i hw
      rw [if_pos hw]
      obtain ⟨th, q1, q2⟩ := hr.rel.main hc p _ _ (Or.inr this)
      exact ⟨by rw [this]; rfl, dressed_iff q1 q2⟩
    · rename_i hw
      rw [if_neg hw]
      obtain ⟨th, q1, q2⟩ := hr.rel.main hc p _ _ (Or.inl this)
      exact ⟨by rw [this]; rfl, dressed_iff q1 q2⟩
  · have h1 := hd.2 p c hin hcp
    rw [if_pos hrh] at h1
    refine ⟨by rw [hcell, h1]; rfl, fun l hl => ?_⟩
    obtain ⟨h0, c', hc', hw⟩ := hrh
    rw [hl, Option.some.injEq] at hc'
    subst hc'
    have hin' : InBounds ⟨p.line, p.column - 1⟩ x.s.buf.size :=
      ⟨hin.1, by have := hin.2; dsimp only; omega⟩
    have h2 := hd.2 _ l hin' hl
    have hnr : ¬ RightHalf u x.s.buf ⟨p.line, p.column - 1⟩ := by
      intro hr'
      rw [if_pos hr'] at h2
      obtain ⟨-, a, d, e⟩ := h.paired.1 p.line p.column h1
      rw [h2] at e; cases e
    rw [if_neg hnr] at h2
    unfold picture at h2
    rw [if_pos hw] at h2
    obtain ⟨th, q1, q2⟩ := hr.rel.right hc p _ _ h0 h1 h2
    exact dressed_iff q1 q2
  · rw [hr.rel.word, hth]; exact themeWord_plain wt
  · rw [hg]
    refine h.atTarget ?_
    have hin : InBounds (target x.s.buf) x.s.buf.size := target_in h.grid.size
    have hlt : numOf x.s.buf.size (target x.s.buf) < x.s.buf.buffer.length := by
      have h1 := h.grid.len
      have h1 : x.s.buf.buffer.length = _ := h1
      rw [h1]; exact numOf_lt hin
    have := hd.2 _ _ hin (List.getElem?_eq_getElem hlt)
    rw [if_neg hn] at this
    show t.cell (target x.s.buf) ≠ _
    rw [this]
    unfold picture
    split <;> (intro e; cases e)

/-- What the last refresh of a session leaves. -/
theorem wshow_end (hT : TableOk u) {cfg : PrepareConfig} {z : Size} (hz : ConSize z) {x y : WSess}
    (hx : WOpened u wt cfg z x) {steps : List WinStep} (N : Prop)
    (hs : WWideRun u wt x (steps ++ [.refresh]) ∨ N) (hN : N → ∀ st ∈ steps, WNarrow u st)
    (h : WinStep.Path u wt (steps ++ [.refresh]) x y) :
    ∃ b, runOps u (steps.filterMap WinStep.asOp) (Buf.new z) = some b ∧
      ∃ o, y.c.outs y.s.w.outH = some o ∧ y.c.active = y.s.w.outH ∧ ConShows u wt.defAttrs o b ∧
        o.word = wt.defAttrs ∧ (¬ RightHalf u b (target b) → o.glyph.cur = some (target b)) ∧
        (N → NoWide u b) := by
  obtain ⟨x', h1, y', e, rfl⟩ := path_append _ _ _ _ h
  obtain ⟨i0, hb0⟩ := wopened_inv hT hz hx (N := N)
  obtain ⟨i1, b, r1, r2⟩ := wsinv_run hT steps x x' (Buf.new z) i0 (by rw [hb0]; rfl)
    (hs.imp (fun hs => (wwide_append _ _ _ hs).1) id) hN h1
  have hrev : WNoReveal u x' := by
    rcases hs with hs | n
    · exact ((wwide_append _ _ _ hs).2 _ h1).1
    · exact wnarrow_wide hT n i1 (st := .refresh) trivial e
  obtain ⟨t, o, k1, k2, k3, k4⟩ := i1
  obtain ⟨e1, D, e2, e3, e4⟩ := e
  obtain ⟨c', p1, t', o', q1, q2, q3, q4⟩ := leads_refresh hT.space k1
    (wnoReveal_stale k1 k2 k3 hrev) (Or.inl fun _ h => h) k2 () y.s D e1 e2 e3
  rw [e4, Option.some.injEq] at p1
  subst p1
  obtain ⟨s1, s2, s3⟩ := conShows_after hT.space q1 q2
  have hb : y.s.buf = b.wb y.s.buf.back := by rw [q3, r2]; rfl
  rw [hb] at s1 s3
  refine ⟨b, r1, o', q2.out, q2.active, s1, s2, s3, fun n => ?_⟩
  have := (k4 n).2
  rw [r2] at this
  exact this

end Mortal
