import Verif.Lemmas.Content
import Verif.Props.Writer

/-! # Screens from their opening on -/

namespace Mortal
open Spec

theorem runW_traceW (env : WEnv) : ∀ (ops : List WOp) (s s' : WS), runW env ops s = some s' →
    ∃ tr, traceW env ops s = some (tr, s')
  | [], s, s', e => by cases e; exact ⟨[], rfl⟩
  | op :: ops, s, s', e => by
    simp only [runW] at e
    simp only [traceW]
    cases ho : op.run env s with
    | stop w => rw [ho] at e; cases e
    | ok s1 =>
      rw [ho] at e
      obtain ⟨tr, h⟩ := runW_traceW env ops s1 s' e
      exact ⟨(op, true) :: tr, by dsimp only; rw [h]; rfl⟩
    | err e1 s1 =>
      rw [ho] at e
      obtain ⟨tr, h⟩ := runW_traceW env ops s1 s' e
      exact ⟨(op, false) :: tr, by dsimp only; rw [h]; rfl⟩

/-- A new screen in front of an empty terminal. -/
theorem held_start {u : UEnv} (hT : TableOk u) {z : Size} (hz : ScreenSize z) {s : Scr} {t : Term}
    {b : Bool} (h6 : s.toSData = SData.new z) (hx : t = { Term.blank z with bce := b })
    (k1 : Lk s.w t) : Held u (fun _ => False) s t := by
  have hb : s.buf = Buf.new z := congrArg SData.buf h6
  have hc : s.clear = false := congrArg SData.clear h6
  have hr : s.real = Cursor.default := congrArg SData.real h6
  have hmem : ∀ c ∈ (Buf.new z).buffer, c = Cell.default := fun c hc => by
    exact List.eq_of_mem_replicate hc
  have hdw : Cell.default.isWide u = false := not_wide_of_head_space hT.space rfl
  subst hx
  refine { grid := ?_, good := ?_, torn := ?_, size := ?_, l32 := ?_, c32 := ?_, paired := ?_,
           lk := k1, bk := ?_, cur := ?_, inval := ?_ }
  · rw [hb]; exact new_inv hz.1
  · rw [hb]; intro c hc; rw [hmem c hc]; exact good_default hT
  · rw [hb]
    intro i c hi hw
    rw [hmem c (List.mem_of_getElem? hi), hdw] at hw
    cases hw
  · rw [hb]; rfl
  · rw [hb]; exact hz.2.1
  · rw [hb]; exact hz.2.2
  · exact ⟨fun l c e => (by cases e), fun l c y d e => (by cases e)⟩
  · rw [hb]
    intro j c hj _ _
    have : c = Cell.default := List.eq_of_mem_replicate (List.mem_of_getElem? hj)
    left
    subst this
    unfold pic
    rw [hdw]
    rfl
  · intro _ hin
    left
    rw [hr]; rfl
  · rw [hc]; intro e; cases e

/-- A screen that has just been opened is in order. -/
theorem opened_start {u : UEnv} (hT : TableOk u) {env : WEnv} (hdb : DrawDB env) {z : Size}
    (hz : ScreenSize z) {x : Sess} (h : Opened u env z x) :
    Held u (fun _ => False) x.s x.t ∧ (∃ b, x.t = { Term.blank z with bce := b }) ∧
      Delivered env x.s.w ∧ x.s.toSData = SData.new z := by
  obtain ⟨ops, os, w0, t0, h1, h2, h3, h4, h5, h6, h7⟩ := h
  obtain ⟨tr, ht⟩ := runW_traceW env ops _ _ h2
  obtain ⟨g1, g2⟩ := trace_follow env hdb.attrs ops (WS.new os) w0 plainTheme tr rfl rfl ht
  obtain ⟨new, l1, p1, k1, -⟩ := enter_blank (u := u) hdb.attrs (t0 := t0)
    ⟨g2.trans (by rw [g1]), h4.trans (g2.trans (by rw [g1]))⟩ h5
  have hx : x.t = { Term.blank z with bce := t0.bce } := by
    rw [l1, drop_append_length, p1, Option.some.injEq] at h7
    rw [← h7, h3]; rfl
  have hd : Delivered env x.s.w := by
    have : Delivered env w0 := inv_runW (delivered_inv env) ops _ _ ⟨h1, rfl⟩ h2
    exact inv_enter (delivered_inv env) (some z) w0 this _ (by rw [h5]; rfl)
  exact ⟨held_start hT hz h6 hx ⟨k1.dev, by rw [hx]; exact k1.term⟩, ⟨_, hx⟩, hd, h6⟩

/-- The screen's buffer after these steps, had there been no terminal. -/
theorem opened_content {u : UEnv} {env : WEnv} {z : Size} {x y : Sess} (h : Opened u env z x)
    {steps : List SStep} {rs : List Bool} (e : runS u env steps x = some (rs, y)) :
    ∃ b, runOps u (steps.filterMap SStep.asOp) (Buf.new z) = some b ∧
      y.s.buf = b.wb y.s.buf.back := by
  obtain ⟨_, _, _, _, _, _, _, _, _, h6, _⟩ := h
  refine content_run u env steps x y rs (Buf.new z) ?_ e
  rw [show x.s.buf = Buf.new z from congrArg SData.buf h6]
  rfl

theorem opened_ninv {u : UEnv} (hT : TableOk u) {env : WEnv} (hdb : DrawDB env) {z : Size}
    (hz : ScreenSize z) {x : Sess} (h : Opened u env z x) : NInv u env [] x := by
  obtain ⟨h1, ⟨bc, h2⟩, h3, h4⟩ := opened_start hT hdb hz h
  refine ⟨?_, Or.inr ?_, ?_, h3⟩
  · have : (fun j => j ∈ ([] : List Nat)) = fun _ => False := by funext j; simp
    rw [this]; exact h1
  · rw [h2]; exact fun q => ⟨_, _, rfl⟩
  · rw [show x.s.buf = Buf.new z from congrArg SData.buf h4]
    intro c hc
    rw [show c = Cell.default from List.eq_of_mem_replicate hc]
    exact not_wide_of_head_space hT.space rfl

theorem opened_winv {u : UEnv} (hT : TableOk u) {env : WEnv} (hdb : DrawDB env) {z : Size}
    (hz : ScreenSize z) {x : Sess} (h : Opened u env z x) : WInv u env x := by
  obtain ⟨h1, ⟨bc, h2⟩, h3, -⟩ := opened_start hT hdb hz h
  refine ⟨h1, fun _ p _ => ?_, h3⟩
  rw [h2]
  intro e; cases e

theorem runS_append (u : UEnv) (env : WEnv) : ∀ (a b : List SStep) (x y : Sess) (rs : List Bool),
    runS u env (a ++ b) x = some (rs, y) →
    ∃ r1 r2 x', runS u env a x = some (r1, x') ∧ runS u env b x' = some (r2, y) ∧ rs = r1 ++ r2
  | [], b, x, y, rs, e => ⟨[], rs, x, rfl, e, rfl⟩
  | st :: a, b, x, y, rs, e => by
    rw [List.cons_append, runS] at e
    cases e1 : st.run u env x with
    | none => rw [e1] at e; cases e
    | some v =>
      obtain ⟨r, x'⟩ := v
      rw [e1] at e
      dsimp only at e
      rw [Option.map_eq_some_iff] at e
      obtain ⟨⟨l, y'⟩, e2, e3⟩ := e
      cases e3
      obtain ⟨r1, r2, x2, g1, g2, rfl⟩ := runS_append u env a b x' y' l e2
      refine ⟨r :: r1, r2, x2, ?_, g2, rfl⟩
      rw [runS, e1]
      dsimp only
      rw [g1]; rfl

theorem refresh_last {u : UEnv} {env : WEnv} {steps : List SStep} {x y : Sess} {rs : List Bool}
    (e : runS u env (steps ++ [.refresh]) x = some (rs ++ [true], y)) :
    ∃ x', runS u env steps x = some (rs, x') ∧ SStep.refresh.run u env x' = some (true, y) := by
  obtain ⟨r1, r2, x', g1, g2, g3⟩ := runS_append u env _ _ _ _ _ e
  rw [runS] at g2
  cases e1 : SStep.refresh.run u env x' with
  | none => rw [e1] at g2; cases g2
  | some v =>
    obtain ⟨r, y'⟩ := v
    rw [e1] at g2
    simp only [runS, Option.map_some, Option.some.injEq, Prod.mk.injEq] at g2
    obtain ⟨rfl, rfl⟩ := g2
    have := List.append_inj' g3 rfl
    obtain ⟨rfl, h⟩ := this
    cases h
    exact ⟨x', g1, e1⟩

theorem refresh_done {u : UEnv} {env : WEnv} {x y : Sess}
    (e : SStep.refresh.run u env x = some (true, y)) :
    x.s.refresh u env = .ok y.s ∧ x.t.play u (y.s.w.log.drop x.s.w.log.length) = some y.t := by
  simp only [SStep.run] at e
  cases e1 : x.s.refresh u env with
  | stop w => rw [e1] at e; cases e
  | err e2 s' =>
    rw [e1] at e
    dsimp only at e
    rw [Option.map_eq_some_iff] at e
    obtain ⟨_, _, e3⟩ := e
    cases e3
  | ok s' =>
    rw [e1] at e
    dsimp only at e
    rw [Option.map_eq_some_iff] at e
    obtain ⟨t', e2, e3⟩ := e
    cases e3
    exact ⟨rfl, e2⟩

theorem refresh_pending {u : UEnv} {env : WEnv} {s s' : Scr} (e : s.refresh u env = .ok s') :
    s'.w.pending = [] := by
  rw [refresh_eq] at e
  obtain ⟨s2, -, e⟩ := andThen_inv e
  obtain ⟨s3, -, e⟩ := andThen_inv e
  obtain ⟨s5, -, e⟩ := andThen_inv e
  exact (flush_ok (onW_inv e).1).1

theorem delivered_all {env : WEnv} {w : WS} (h : Delivered env w) (hp : w.pending = []) :
    w.dev = logBytes env w.log := by
  have := h.2
  rwa [hp, List.append_nil] at this

/-- What the last refresh of a session without two-column characters leaves, except for the cells in
`bad`. -/
theorem narrow_end {u : UEnv} (hT : TableOk u) {env : WEnv} (hdb : DrawDB env) {z : Size}
    (hz : ScreenSize z) {x y : Sess} (hx : Opened u env z x) {steps : List SStep}
    (hs : ∀ st ∈ steps, NarrowStep u st) {rs : List Bool}
    (h : runS u env (steps ++ [.refresh]) x = some (rs ++ [true], y)) :
    ∃ (b : Buf) (bad : List Nat), runOps u (steps.filterMap SStep.asOp) (Buf.new z) = some b ∧
      y.s.buf = b.wb y.s.buf.back ∧ bad.length ≤ failures 0 steps rs ∧
      After u (fun j => j ∈ bad) y.s y.t ∧ AllNarrow y.t ∧ NoWide u y.s.buf ∧
      y.s.w.pending = [] ∧ y.s.w.dev = logBytes env y.s.w.log := by
  obtain ⟨x', e1, e2⟩ := refresh_last h
  obtain ⟨bad, hi, hb⟩ := ninv_run hT hdb steps [] x x' rs (opened_ninv hT hdb hz hx) hs e1
  obtain ⟨b, g1, g2⟩ := opened_content hx e1
  obtain ⟨f1, f2⟩ := refresh_done e2
  obtain ⟨hok, -⟩ := refresh_sync hT.space hdb hi.held hi.stale (Or.inr ⟨hi.narrow, hi.noWide⟩)
  obtain ⟨new, t', l1, p1, a1, b1, n1⟩ := hok _ f1
  have hfine := fine_refresh (u := u) (env := env) (b := x'.s.buf) (s := x'.s)
    ⟨hi.dlv, hi.held.grid, rfl⟩
  rw [f1] at hfine
  rw [l1, drop_append_length, p1, Option.some.injEq] at f2
  rw [f2] at a1 n1
  have hp := refresh_pending f1
  refine ⟨b, bad, g1, ?_, hb, a1, n1 hi.narrow hi.noWide, ?_, hp, delivered_all hfine.dlv hp⟩
  · rw [b1, g2]; rfl
  · rw [b1]; exact hi.noWide

/-- What the last refresh of a session with two-column characters leaves. -/
theorem wide_end {u : UEnv} (hT : TableOk u) {env : WEnv} (hdb : DrawDB env) {z : Size}
    (hz : ScreenSize z) {x y : Sess} (hx : Opened u env z x) {steps : List SStep}
    (hs : WideRun u env x (steps ++ [.refresh])) {rs : List Bool} (hr : ∀ r ∈ rs, r = true)
    (h : runS u env (steps ++ [.refresh]) x = some (rs ++ [true], y)) :
    ∃ b : Buf, runOps u (steps.filterMap SStep.asOp) (Buf.new z) = some b ∧
      y.s.buf = b.wb y.s.buf.back ∧ After u (fun _ => False) y.s y.t ∧
      y.s.w.pending = [] ∧ y.s.w.dev = logBytes env y.s.w.log := by
  obtain ⟨x', e1, e2⟩ := refresh_last h
  have hsplit : ∀ (a b : List SStep) (x : Sess), WideRun u env x (a ++ b) → WideRun u env x a ∧
      ∀ rs x', runS u env a x = some (rs, x') → WideRun u env x' b := by
    intro a
    induction a with
    | nil => intro b x h; exact ⟨trivial, fun rs x' e => by cases e; exact h⟩
    | cons st a ih =>
      intro b x h
      refine ⟨⟨h.1, fun r x' e => (ih b x' (h.2 r x' e)).1⟩, fun rs x' e => ?_⟩
      rw [runS] at e
      cases e1 : st.run u env x with
      | none => rw [e1] at e; cases e
      | some v =>
        obtain ⟨r, x1⟩ := v
        rw [e1] at e
        dsimp only at e
        rw [Option.map_eq_some_iff] at e
        obtain ⟨⟨l, y'⟩, e2, e3⟩ := e
        cases e3
        exact (ih b x1 (h.2 _ _ e1)).2 _ _ e2
  obtain ⟨w1, w2⟩ := hsplit _ _ _ hs
  have hi := winv_run hT hdb steps x x' rs (opened_winv hT hdb hz hx) w1 e1 hr
  have hrev : NoReveal u x' := (w2 _ _ e1).1
  obtain ⟨b, g1, g2⟩ := opened_content hx e1
  obtain ⟨f1, f2⟩ := refresh_done e2
  obtain ⟨hok, -⟩ := refresh_sync hT.space hdb hi.held (hi.stale hrev) (Or.inl fun _ h => h)
  obtain ⟨new, t', l1, p1, a1, b1, -⟩ := hok _ f1
  have hfine := fine_refresh (u := u) (env := env) (b := x'.s.buf) (s := x'.s)
    ⟨hi.dlv, hi.held.grid, rfl⟩
  rw [f1] at hfine
  rw [l1, drop_append_length, p1, Option.some.injEq] at f2
  rw [f2] at a1
  have hp := refresh_pending f1
  refine ⟨b, g1, ?_, a1, hp, delivered_all hfine.dlv hp⟩
  rw [b1, g2]; rfl

theorem view_plain : view plainTheme = .plain := rfl

/-! ## Which cells are sent, as positions -/

theorem before_posOf {z : Size} (hz : 0 < z.columns) {i j : Nat} (h : i < j) :
    Before (posOf z i) (posOf z j) := by
  unfold Before posOf
  dsimp only
  have h1 : i / z.columns ≤ j / z.columns := Nat.div_le_div_right (by omega)
  rcases Nat.lt_or_eq_of_le h1 with h1 | h1
  · exact Or.inl h1
  · right
    refine ⟨h1, ?_⟩
    have a := Nat.div_add_mod i z.columns
    have b := Nat.div_add_mod j z.columns
    rw [h1] at a
    omega

theorem live_shadow {u : UEnv} {b : Buf} {p : Cursor} :
    Live u b.buffer (numOf b.size p) ↔ ¬ Shadowed u b p := by
  unfold Live Shadowed
  constructor
  · rintro h ⟨c, h0, h1, h2⟩
    rcases h with h | h
    · omega
    · have := h c h1
      rw [isWide_iff.mpr h2] at this; cases this
  · intro h
    by_cases h0 : numOf b.size p = 0
    · exact Or.inl h0
    · right
      intro c hc
      cases hw : c.isWide u with
      | false => rfl
      | true => exact absurd ⟨c, by omega, hc, isWide_iff.mp hw⟩ h

/-- The cells sent by a refresh, as positions. -/
theorem sent_positions {u : UEnv} {env : WEnv} {s s' : Scr} (hg : GridOk s.buf)
    (h : s.refresh u env = .ok s') :
    ∃ ps : List Cursor, ps.Pairwise Before ∧
      (∀ p ∈ ps, InBounds p s.buf.size ∧ cellAt s.buf p ≠ s.buf.back[numOf s.buf.size p]?) ∧
      (∀ p, InBounds p s.buf.size → ¬ Shadowed u s.buf p →
        cellAt s.buf p ≠ s.buf.back[numOf s.buf.size p]? → p ∈ ps) ∧
      sentTexts s'.w.log = sentTexts s.w.log ++ ps.map (textAt s.buf) ∧
      (∀ p, InBounds p s.buf.size → ¬ Shadowed u s.buf p →
        s'.buf.back[numOf s.buf.size p]? = cellAt s.buf p) ∧
      (s.clear = true → ∃ new, s'.w.log = s.w.log ++ .cap .clearScreen [] :: new) := by
  have hi : s.buf.Inv := ⟨hg.size, hg.len, hg.backLen, hg.text⟩
  obtain ⟨js, h1, h2, h3⟩ := refresh_sent hi h
  refine ⟨js.map (posOf s.buf.size), ?_, ?_, ?_, ?_, ?_, h3⟩
  · rw [List.pairwise_map]
    exact h1.sorted.imp fun h => before_posOf hg.size.2.1 h
  · intro p hp
    rw [List.mem_map] at hp
    obtain ⟨j, hj, rfl⟩ := hp
    have := h1.mem j hj
    refine ⟨(inBounds_posOf hg.size).mpr (by have := this.2.1; unfold Size.area at this; omega), ?_⟩
    show s.buf.buffer[numOf s.buf.size (posOf s.buf.size j)]? ≠ _
    rw [numOf_posOf']
    exact this.2.2
  · intro p hin hs hne
    rw [List.mem_map]
    refine ⟨numOf s.buf.size p, ?_, posOf_numOf' hin⟩
    have := numOf_lt hin
    exact h1.all _ (Nat.zero_le _) (by unfold Size.area; omega) (Or.inr (live_shadow.mpr hs)) hne
  · rw [h2, List.map_map]
    congr 1
    refine List.map_congr_left fun j _ => ?_
    show encAt s.buf j = textAt s.buf (posOf s.buf.size j)
    unfold encAt textAt cellAt
    have : (posOf s.buf.size j).line * s.buf.size.columns + (posOf s.buf.size j).column = j :=
      numOf_posOf' j
    rw [this]
  · intro p hin hs
    have := numOf_lt hin
    rcases h1.synced (numOf s.buf.size p) (Nat.zero_le _) (by unfold Size.area; omega) with h | h
    · exact h
    · exact absurd (live_shadow.mpr hs) h.2

theorem effect_runOps {u : UEnv} (hu : SpaceOk u) : ∀ (ops : List BufOp) (b b' : Buf),
    (∀ op ∈ ops, ∀ z, op ≠ .resize z) → runOps u ops b = some b' →
    b'.back = b.back ∧ b'.size = b.size
  | [], b, b', _, e => by cases e; exact ⟨rfl, rfl⟩
  | op :: ops, b, b', h, e => by
    simp only [runOps, Option.bind_eq_some_iff] at e
    obtain ⟨b1, e1, e2⟩ := e
    have h1 := op_effect hu (h op (List.mem_cons_self ..)) e1
    have h2 := effect_runOps hu ops b1 b' (fun o ho => h o (List.mem_cons_of_mem _ ho)) e2
    exact ⟨h2.1.trans h1.back, h2.2.trans h1.size⟩

end Mortal
