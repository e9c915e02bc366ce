import Verif.Lemmas.SessionRun
import Verif.Props.BufferWide

/-!
# Screens: what a refresh puts on the terminal (C17, C18, C19, C20)

The terminal is the one of `Spec/Screen.lean`. A session starts when the alternate screen has just
been entered, with any use of the terminal before that. The buffer `b` in the theorems is what the
drawing calls and resizes of the session alone produce; refreshes play no part in it.
-/

namespace Mortal
open Spec

/-! ## C18 -/

/-- C18 for sessions that draw only one-column characters (with combining marks of width zero): after
any number of drawing calls, refreshes and resizes, in any order, with a final refresh that returns
`Ok` and no failed refresh since the last resize, every cell of the terminal shows the text and the
attributes of the buffer, the cursor is where it should be, the attributes are reset, and all of
this has left the program. Missing for the full claim: two-column characters, see `C18_wide_partial`
and the refutations below; failed refreshes, see C20. -/
theorem C18_narrow_partial {u : UEnv} (hT : TableOk u) {env : WEnv} (hdb : DrawDB env) {z : Size}
    (hz : ScreenSize z) {x y : Sess} (hx : Opened u env z x) (steps : List SStep)
    (hs : ∀ st ∈ steps, NarrowStep u st) (rs : List Bool)
    (h : runS u env (steps ++ [.refresh]) x = some (rs ++ [true], y))
    (hf : failures 0 steps rs = 0) :
    ∃ b, runOps u (steps.filterMap SStep.asOp) (Buf.new z) = some b ∧
      Displays u y.t b ∧ y.t.cur = some (target b) ∧ y.t.attrs = .plain ∧
      y.s.w.pending = [] ∧ y.s.w.dev = logBytes env y.s.w.log := by
  obtain ⟨b, bad, h1, h2, h3, h4, h5, h6, h7, h8⟩ := narrow_end hT hdb hz hx hs h
  obtain rfl : bad = [] := List.eq_nil_of_length_eq_zero (by omega)
  have h4 : After u (fun _ => False) y.s y.t := by
    have : (fun j => j ∈ ([] : List Nat)) = fun _ => False := by funext j; simp
    rw [← this]; exact h4
  have hd := h4.displays hT.space
  have hc := h4.atTarget (by obtain ⟨a, d, e⟩ := h5 (target y.s.buf); rw [e]; intro h; cases h)
  rw [h2] at hd hc
  exact ⟨b, h1, hd, hc, by rw [h4.lk.term, h4.plain]; rfl, h7, h8⟩

/-- C18 for sessions with two-column characters in which every call is safe: no character is written
where it does not fit, no resize cuts one in half, and no cell is uncovered with the content that
was last drawn there (`WideRun`); all refreshes succeed. The cursor is right except possibly when it
is in the right half of a two-column character. Missing for the full claim: the excluded calls,
where it is false, see the refutations below. -/
theorem C18_wide_partial {u : UEnv} (hT : TableOk u) {env : WEnv} (hdb : DrawDB env) {z : Size}
    (hz : ScreenSize z) {x y : Sess} (hx : Opened u env z x) (steps : List SStep)
    (hs : WideRun u env x (steps ++ [.refresh])) (rs : List Bool) (hr : ∀ r ∈ rs, r = true)
    (h : runS u env (steps ++ [.refresh]) x = some (rs ++ [true], y)) :
    ∃ b, runOps u (steps.filterMap SStep.asOp) (Buf.new z) = some b ∧
      Displays u y.t b ∧ (¬ RightHalf u b (target b) → y.t.cur = some (target b)) ∧
      y.t.attrs = .plain ∧ y.s.w.pending = [] ∧ y.s.w.dev = logBytes env y.s.w.log := by
  obtain ⟨b, h1, h2, h4, h7, h8⟩ := wide_end hT hdb hz hx hs hr h
  have hd := h4.displays hT.space
  have hc : ¬ RightHalf u y.s.buf (target y.s.buf) → y.t.cur = some (target y.s.buf) := by
    intro hn
    apply h4.atTarget
    have hin := target_in h4.grid.size
    have hlt : numOf y.s.buf.size (target y.s.buf) < y.s.buf.buffer.length := by
      rw [h4.grid.len]; exact numOf_lt hin
    rw [hd.2 _ _ hin (List.getElem?_eq_getElem hlt), if_neg hn]
    unfold picture
    split <;> (intro e; cases e)
  rw [h2] at hd hc
  exact ⟨b, h1, hd, hc, by rw [h4.lk.term, h4.plain]; rfl, h7, h8⟩

/-- C18. In such sessions (even after failures, without two-column characters) a refresh does not
panic and sends nothing the terminal could not make sense of: there is a result unless the refresh
waits for the operating system forever. -/
theorem C18_refresh_returns {u : UEnv} (hT : TableOk u) {env : WEnv} (hdb : DrawDB env) {z : Size}
    (hz : ScreenSize z) {x y : Sess} (hx : Opened u env z x) (steps : List SStep)
    (hs : ∀ st ∈ steps, NarrowStep u st) (rs : List Bool) (h : runS u env steps x = some (rs, y)) :
    (∃ r, SStep.refresh.run u env y = some r) ∨ y.s.refresh u env = .stop .blocked := by
  obtain ⟨bad, hi, -⟩ := ninv_run hT hdb steps [] x y rs (opened_ninv hT hdb hz hx) hs h
  obtain ⟨hok, herr⟩ := refresh_sync hT.space hdb hi.held hi.stale (Or.inr ⟨hi.narrow, hi.noWide⟩)
  have hfine := fine_refresh (u := u) (env := env) (b := y.s.buf) (s := y.s)
    ⟨hi.dlv, hi.held.grid, rfl⟩
  simp only [SStep.run]
  cases e : y.s.refresh u env with
  | ok s' =>
    obtain ⟨new, t', l1, p1, -⟩ := hok s' e
    left
    dsimp only
    rw [l1, drop_append_length, p1]
    exact ⟨_, rfl⟩
  | err e1 s' =>
    obtain ⟨i, new, t', l1, p1, -⟩ := herr e1 s' e
    left
    dsimp only
    rw [l1, drop_append_length, p1]
    exact ⟨_, rfl⟩
  | stop w =>
    right
    rw [e] at hfine
    rw [show w = .blocked from hfine]

/-! ### Examples -/

theorem demo_table : TableOk demoEnv where
  space := ⟨rfl, rfl⟩
  le2 := by
    intro ch
    unfold UEnv.w demoEnv
    dsimp only
    repeat' split
    all_goals simp
  ctl := by
    intro ch h
    unfold Control at h
    unfold UEnv.w demoEnv
    dsimp only
    have h1 : ch ≠ '世' := by rintro rfl; revert h; decide
    have h2 : ch ≠ '́' := by rintro rfl; revert h; decide
    rw [if_neg h1, if_neg h2, if_pos h]
    exact ⟨rfl, by simpa using h2⟩

theorem demo_db : DrawDB demoDB :=
  ⟨fun _ _ => ⟨_, rfl, fun _ => rfl⟩, ⟨_, rfl, fun _ => rfl⟩,
    fun f h ps => by cases h; rfl, ⟨_, rfl, fun _ => rfl⟩⟩

/-- A screen of the given size, just opened on a fresh terminal. -/
def demoSess (z : Size) (os : List WriteRes) : Sess where
  s := { SData.new z with
    w := match enterScreen demoDB (some z) (WS.new os) with
      | .ok w => w
      | _ => WS.new os }
  t := .blank z

theorem demo_opened (z : Size) (hz : 0 < z.lines) (os : List WriteRes) (ho : NoShortWrites os) :
    Opened demoEnv demoDB z (demoSess z os) := by
  have he : ∃ w, enterScreen demoDB (some z) (WS.new os) = .ok w := by
    unfold enterScreen usub
    simp only [demoDB]
    rw [if_pos (by omega)]
    exact ⟨_, rfl⟩
  obtain ⟨w, he⟩ := he
  have hw : (demoSess z os).s.w = w := by
    show (match enterScreen demoDB (some z) (WS.new os) with
      | .ok w => w
      | _ => WS.new os) = w
    rw [he]
  refine ⟨[], os, WS.new os, ⟨z, fun _ => .torn, none, none, .plain, true⟩, ho, rfl, rfl,
    rfl, by rw [hw]; exact he, rfl, ?_⟩
  obtain ⟨new, l1, p1, -⟩ := enter_blank (u := demoEnv) (w0 := WS.new os) demo_db.attrs
    (t0 := ⟨z, fun _ => .torn, none, none, .plain, true⟩) ⟨view_plain.symm, view_plain.symm⟩ he
  rw [hw, l1, drop_append_length, p1]
  rfl

def demoSteps : List SStep :=
  [.draw (.writeStyledAt ⟨0, 1⟩ (some .red) none 1#8 ['a', '\u0301', 'b', 'c']), .refresh,
   .resized ⟨2, 2⟩ (fun _ => .torn) none, .draw (.writeAt ⟨1, 0⟩ ['d']), .draw (.setCursor ⟨5, 5⟩)]

/-- Non-trivial case: styled text with a combining mark running over the line end, a refresh, a
resize, more text, the cursor outside the screen. -/
example : (∀ st ∈ demoSteps, NarrowStep demoEnv st) := by
  intro st h
  simp only [demoSteps, List.mem_cons, List.not_mem_nil, or_false] at h
  rcases h with rfl | rfl | rfl | rfl | rfl
  · exact ⟨nofun, by decide, by unfold ThinMarks; decide⟩
  · trivial
  · exact ⟨by unfold ScreenSize GoodSize; decide, by unfold Term.Paired; simp⟩
  · exact ⟨nofun, by decide, by unfold ThinMarks; decide⟩
  · exact ⟨nofun, by decide, by unfold ThinMarks; decide⟩

example : (runS demoEnv demoDB (demoSteps ++ [.refresh]) (demoSess ⟨2, 3⟩ [.all, .eintr, .all])).map
    (fun r => (r.1, r.2.t.cell ⟨0, 0⟩, r.2.t.cell ⟨0, 1⟩, r.2.t.cell ⟨1, 0⟩, r.2.t.cur)) =
    some ([true, true, true, true, true] ++ [true], .narrow [' '] .plain,
      .narrow ['a', '\u0301'] ⟨some 1, none, true, false, false, false⟩,
      .narrow ['d'] .plain, some ⟨1, 1⟩) := by decide +kernel

/-- Non-trivial case with a two-column character, followed by an ordinary one. -/
example :
    let steps : List SStep := [.draw (.writeAt ⟨0, 0⟩ ['世', 'x'])]
    WideRun demoEnv demoDB (demoSess ⟨1, 4⟩ [.all, .all]) (steps ++ [.refresh]) ∧
    (runS demoEnv demoDB (steps ++ [.refresh]) (demoSess ⟨1, 4⟩ [.all, .all])).map
      (fun r => (r.1, r.2.t.cell ⟨0, 0⟩, r.2.t.cell ⟨0, 1⟩, r.2.t.cell ⟨0, 2⟩, r.2.t.cur)) =
    some ([true] ++ [true], .left ['世'] .plain, .right, .narrow ['x'] .plain, some ⟨0, 3⟩) := by
  refine ⟨⟨⟨nofun, ⟨by decide, by decide, fun b' e => ⟨?_, ?_, fun _ _ => trivial⟩⟩,
    by unfold ThinMarks; decide⟩, fun r x' e => ⟨?_, fun _ _ _ => trivial⟩⟩, by decide +kernel⟩
  · have : b'.size = ⟨1, 4⟩ := by
      have e' : (Buf.writeChar demoEnv { Buf.new ⟨1, 4⟩ with cursor := ⟨0, 0⟩ } '世').map
          (fun p => p.1.size) = some ⟨1, 4⟩ := by decide
      exact Option.some.inj ((congrArg (Option.map fun p : Buf × WRes => p.1.size) e).symm.trans e')
    rw [this]; decide
  · rintro ⟨h, -⟩; revert h; decide
  · intro _ p _ hr
    simp only [SStep.run, Option.map_eq_some_iff] at e
    obtain ⟨b, -, e⟩ := e
    cases e
    cases hr

/-! ### Refutations -/

/-- A way for a terminal not to show a buffer. -/
theorem not_displays {u : UEnv} {t : Term} {b : Buf} {l c : Nat} {cell left : Cell}
    (hin : InBounds ⟨l, c + 1⟩ b.size) (hc : cellAt b ⟨l, c + 1⟩ = some cell)
    (hl : cellAt b ⟨l, c⟩ = some left) (hw : left.isWide u = false)
    (h : t.cell ⟨l, c + 1⟩ ≠ pic u cell) : ¬ Displays u t b := by
  intro hd
  apply h
  rw [hd.2 _ _ hin hc, if_neg, picture_eq]
  rintro ⟨-, c', h1, h2⟩
  have h1 : cellAt b ⟨l, c⟩ = some c' := h1
  rw [hl, Option.some.injEq] at h1
  subst h1
  rw [isWide_iff.mpr h2] at hw
  cases hw

/-- Draw `ax`, then a two-column character over both, then `ax` again, with a refresh each time. -/
def staleSteps : List SStep :=
  [.draw (.writeAt ⟨0, 0⟩ ['a', 'x']), .refresh, .draw (.writeAt ⟨0, 0⟩ ['世']), .refresh,
   .draw (.writeAt ⟨0, 0⟩ ['a', 'x'])]

/-- C18 is false with two-column characters: the record of what is on the terminal is not updated
for the right half, so when the cell is uncovered with its former content it is not sent again. All
calls succeed, everything fits, yet the terminal does not show the `x`. -/
theorem C18_stale_refuted :
    ∃ x y : Sess, Opened demoEnv demoDB ⟨1, 4⟩ x ∧
      runS demoEnv demoDB (staleSteps ++ [.refresh]) x = some ([true, true, true, true, true] ++ [true], y) ∧
      ∃ b, runOps demoEnv (staleSteps.filterMap SStep.asOp) (Buf.new ⟨1, 4⟩) = some b ∧
        cellAt b ⟨0, 1⟩ = some ⟨none, none, 0#8, ['x']⟩ ∧ y.t.cell ⟨0, 1⟩ = .torn ∧
        ¬ Displays demoEnv y.t b := by
  have h1 : (runS demoEnv demoDB (staleSteps ++ [.refresh]) (demoSess ⟨1, 4⟩ [.all, .all, .all])).map
      (fun r => (r.1, r.2.t.cell ⟨0, 1⟩)) = some ([true, true, true, true, true] ++ [true], .torn) := by
    decide +kernel
  have h2 : (runOps demoEnv (staleSteps.filterMap SStep.asOp) (Buf.new ⟨1, 4⟩)).map
      (fun b => (b.size, cellAt b ⟨0, 1⟩, cellAt b ⟨0, 0⟩)) = some (⟨1, 4⟩, some ⟨none, none, 0#8, ['x']⟩,
        some ⟨none, none, 0#8, ['a']⟩) := by decide +kernel
  rw [Option.map_eq_some_iff] at h1 h2
  obtain ⟨⟨rs, y⟩, e1, e2⟩ := h1
  obtain ⟨b, e3, e4⟩ := h2
  simp only [Prod.mk.injEq] at e2 e4
  obtain ⟨rfl, e2⟩ := e2
  obtain ⟨e4, e5, e6⟩ := e4
  refine ⟨_, y, demo_opened _ (by decide) _ (by unfold NoShortWrites; simp), e1, b, e3, e5, e2, ?_⟩
  refine not_displays (by rw [e4]; decide) e5 e6 (by decide) ?_
  rw [e2]
  decide

/-- C18 is false for the cursor: after drawing a two-column character the screen takes the cursor to
be in its right half; a cursor wanted exactly there is not moved. -/
theorem C18_cursor_refuted :
    ∃ x y : Sess, Opened demoEnv demoDB ⟨1, 4⟩ x ∧
      runS demoEnv demoDB [.draw (.writeAt ⟨0, 0⟩ ['世']), .draw (.setCursor ⟨0, 1⟩), .refresh] x =
        some ([true, true, true], y) ∧
      y.s.buf.cursor = ⟨0, 1⟩ ∧ y.t.cur = some ⟨0, 2⟩ := by
  have h1 : (runS demoEnv demoDB [.draw (.writeAt ⟨0, 0⟩ ['世']), .draw (.setCursor ⟨0, 1⟩), .refresh]
      (demoSess ⟨1, 4⟩ [.all])).map (fun r => (r.1, r.2.s.buf.cursor, r.2.t.cur)) =
      some ([true, true, true], ⟨0, 1⟩, some ⟨0, 2⟩) := by decide +kernel
  rw [Option.map_eq_some_iff] at h1
  obtain ⟨⟨rs, y⟩, e1, e2⟩ := h1
  simp only [Prod.mk.injEq] at e2
  obtain ⟨rfl, e2, e3⟩ := e2
  exact ⟨_, y, demo_opened _ (by decide) _ (by unfold NoShortWrites; simp), e1, e2, e3⟩

/-- C18 is false when a two-column character does not fit on its line: the buffer then holds it in
the last cell of the line and again on the next line. The refresh sends it with the cursor in the
last column and skips the first cell of the next line, although that cell changed. -/
theorem C18_line_end_refuted :
    (runOps demoEnv [.writeAt ⟨0, 1⟩ ['世']] (Buf.new ⟨2, 2⟩)).map
      (fun b => (cellAt b ⟨0, 1⟩, cellAt b ⟨1, 0⟩)) =
      some (some ⟨none, none, 0#8, ['世']⟩, some ⟨none, none, 0#8, ['世']⟩) ∧
    ∃ s', ({ (demoSess ⟨2, 2⟩ [.all]).s with
        buf := ((BufOp.writeAt ⟨0, 1⟩ ['世']).run demoEnv (Buf.new ⟨2, 2⟩)).getD (Buf.new ⟨2, 2⟩) }
        : Scr).refresh demoEnv demoDB = .ok s' ∧
      s'.w.log.drop (demoSess ⟨2, 2⟩ [.all]).s.w.log.length =
        [.cap .cursorAddress [0, 1], .text (encode ['世']), .cap .cursorAddress [1, 1]] := by
  refine ⟨by decide +kernel, ?_⟩
  have h : (match ({ (demoSess ⟨2, 2⟩ [.all]).s with
        buf := ((BufOp.writeAt ⟨0, 1⟩ ['世']).run demoEnv (Buf.new ⟨2, 2⟩)).getD (Buf.new ⟨2, 2⟩) }
        : Scr).refresh demoEnv demoDB with
      | .ok s' => some (s'.w.log.drop (demoSess ⟨2, 2⟩ [.all]).s.w.log.length)
      | _ => none) = some [.cap .cursorAddress [0, 1], .text (encode ['世']),
        .cap .cursorAddress [1, 1]] := by decide +kernel
  split at h
  · rename_i s' e
    exact ⟨s', e, Option.some.inj h⟩
  · cases h

/-! ## C19 -/

/-- C19. A refresh right after a successful one changes nothing: not the device, not the pending
output, and it does not even call the operating system. For every screen with an intact grid
(whatever it shows, also torn two-column characters), every terminal and every system. -/
theorem C19_second_refresh_silent (u : UEnv) (env : WEnv) (s s' : Scr) (hg : GridOk s.buf)
    (h : s.refresh u env = .ok s') : s'.refresh u env = .ok s' :=
  refresh_again ⟨hg.size, hg.len, hg.backLen, hg.text⟩ h

/-- C19. After a successful refresh and any drawing calls, the next refresh sends, in reading order,
only cells that changed since, or that the previous refresh took to be covered by a two-column
character; and it sends every changed cell, except those it now takes to be covered. -/
theorem C19_only_changed {u : UEnv} (hu : SpaceOk u) (env : WEnv) (s s1 s2 : Scr) (b : Buf)
    (ops : List BufOp) (hg : GridOk s.buf) (h1 : s.refresh u env = .ok s1)
    (hops : ∀ op ∈ ops, ∀ z, op ≠ .resize z) (hb : runOps u ops s1.buf = some b) (hgb : GridOk b)
    (h2 : ({ s1 with buf := b } : Scr).refresh u env = .ok s2) :
    ∃ ps : List Cursor, ps.Pairwise Before ∧
      (∀ p ∈ ps, InBounds p b.size ∧ (cellAt b p ≠ cellAt s1.buf p ∨ Shadowed u s1.buf p)) ∧
      (∀ p, InBounds p b.size → ¬ Shadowed u b p → ¬ Shadowed u s1.buf p →
        cellAt b p ≠ cellAt s1.buf p → p ∈ ps) ∧
      sentTexts s2.w.log = sentTexts s1.w.log ++ ps.map (textAt b) := by
  obtain ⟨-, -, -, -, -, k5, -⟩ := sent_positions hg h1
  obtain ⟨ps, a1, a2, a3, a4, -, -⟩ := sent_positions (s := { s1 with buf := b }) hgb h2
  obtain ⟨e1, e2⟩ := effect_runOps hu ops _ _ hops hb
  have hbuf : s1.buf = s.buf.wb s1.buf.back := keeps_refresh u env s s1 (by rw [h1]; rfl)
  have hsz : b.size = s.buf.size := by rw [e2, hbuf]; rfl
  have hsync : ∀ p, InBounds p b.size → ¬ Shadowed u s1.buf p →
      b.back[numOf b.size p]? = cellAt s1.buf p := by
    intro p hin hs
    rw [e1, hsz, k5 p (by rw [← hsz]; exact hin) (by rw [hbuf] at hs; exact hs), hbuf]
    rfl
  refine ⟨ps, a1, fun p hp => ?_, fun p hin hs hs1 hne => ?_, a4⟩
  · obtain ⟨g1, g2⟩ := a2 p hp
    refine ⟨g1, ?_⟩
    by_cases hs : Shadowed u s1.buf p
    · exact Or.inr hs
    · left
      rw [← hsync p g1 hs]
      exact g2
  · exact a3 p hin hs (by rw [show ({ s1 with buf := b } : Scr).buf = b from rfl, hsync p hin hs1]; exact hne)

/-- Non-trivial case: `ab` is shown, then the `b` is changed and only that is sent. -/
example : (runS demoEnv demoDB [.draw (.writeAt ⟨0, 0⟩ ['a', 'b']), .refresh,
      .draw (.writeAt ⟨0, 0⟩ ['a', 'c']), .refresh, .refresh] (demoSess ⟨1, 3⟩ [.all, .all])).map
    (fun r => (r.1, sentTexts r.2.s.w.log)) =
    some ([true, true, true, true, true], [encode ['a'], encode ['b'], encode ['c']]) := by
  decide +kernel

/-! ## C17, the refresh after a resize -/

/-- C17. After a resize and any drawing calls, a successful refresh clears the terminal and sends
every visible cell, in reading order. Missing: buffers with torn two-column characters, where it is
false (next theorem). -/
theorem C17_repaints_partial {u : UEnv} (hu : SpaceOk u) (env : WEnv) (s s' : Scr) (d : SData) (z : Size)
    (hd : s.toSData.updateSize z = some d) (ops : List BufOp)
    (hops : ∀ op ∈ ops, ∀ z, op ≠ .resize z) (b : Buf) (hb : runOps u ops d.buf = some b)
    (hgb : GridOk b) (hn : NoTorn u b)
    (h : ({ d with buf := b, w := s.w } : Scr).refresh u env = .ok s') :
    ∃ ps : List Cursor, ps.Pairwise Before ∧
      (∀ p, InBounds p z → ¬ RightHalf u b p → p ∈ ps) ∧
      sentTexts s'.w.log = sentTexts s.w.log ++ ps.map (textAt b) ∧
      ∃ new, s'.w.log = s.w.log ++ .cap .clearScreen [] :: new := by
  obtain ⟨ps, a1, a2, a3, a4, -, a6⟩ := sent_positions (s := { d with buf := b, w := s.w }) hgb h
  obtain ⟨e1, e2⟩ := effect_runOps hu ops _ _ hops hb
  unfold SData.updateSize at hd
  cases e3 : s.buf.resize z with
  | none => rw [e3] at hd; cases hd
  | some b' =>
    rw [e3] at hd
    have hd : _ = d := Option.some.inj hd
    subst hd
    have hi : b.Inv := ⟨hgb.size, hgb.len, hgb.backLen, hgb.text⟩
    have hb' : b'.back = List.replicate z.area Cell.invalid ∧ b'.size = z := by
      unfold Buf.resize at e3
      cases e4 : Buf.resizeBuffer s.buf.buffer s.buf.size z with
      | none => rw [e4] at e3; cases e3
      | some l =>
        rw [e4] at e3
        have e3 : _ = b' := Option.some.inj e3
        subst e3
        exact ⟨rfl, rfl⟩
    have hsz : b.size = z := e2.trans hb'.2
    refine ⟨ps, a1, fun p hin hr => a3 p (by rw [← hsz] at hin; exact hin) ?_ ?_, a4, a6 rfl⟩
    · rw [← live_shadow]
      exact (live_iff ((noTorn_iff hi).mp hn) (by rw [hsz]; exact hin)).mpr hr
    · show cellAt b p ≠ b.back[numOf b.size p]?
      intro he
      have hlt : numOf b.size p < b.buffer.length := by
        rw [hgb.len]; exact numOf_lt (by rw [hsz]; exact hin)
      have hc : cellAt b p = some b.buffer[numOf b.size p] := List.getElem?_eq_getElem hlt
      rw [hc] at he
      have hmem := List.mem_of_getElem? he.symm
      rw [e1, hb'.1] at hmem
      have := List.eq_of_mem_replicate hmem
      have hne := hgb.text _ (List.getElem_mem hlt)
      rw [this] at hne
      exact hne rfl

/-- Non-trivial case: a screen with a two-column character is made smaller. -/
example :
    let d := ((SData.new ⟨2, 4⟩).updateSize ⟨2, 3⟩).getD (SData.new ⟨2, 4⟩)
    (SData.new ⟨2, 4⟩).updateSize ⟨2, 3⟩ = some d ∧
    GoodSize ⟨2, 3⟩ ∧ GridOk (SData.new ⟨2, 4⟩).buf ∧
    (runOps demoEnv [.writeAt ⟨1, 0⟩ ['世', 'x']] d.buf).map (fun b => (b.size, b.buffer.map (·.text))) =
      some (⟨2, 3⟩, [[' '], [' '], [' '], ['世'], [' '], ['x']]) ∧
    (runS demoEnv demoDB [.resized ⟨2, 3⟩ (fun _ => .torn) none, .draw (.writeAt ⟨1, 0⟩ ['世', 'x']),
        .refresh] (demoSess ⟨2, 4⟩ [.all])).map (fun r => (r.1, sentTexts r.2.s.w.log)) =
      some ([true, true, true], [encode [' '], encode [' '], encode [' '], encode ['世'], encode ['x']]) :=
  ⟨by decide, by decide, new_inv (by decide), by decide +kernel, by decide +kernel⟩

/-- C17 is false when the resize cuts a two-column character in half: the refresh then skips the
first cell of the next line. Here the `x` in that cell is never sent. -/
theorem C17_cut_refuted :
    ∃ (b : Buf) (d : SData) (s' : Scr),
      runOps demoEnv [.writeAt ⟨0, 1⟩ ['世'], .writeAt ⟨1, 0⟩ ['x']] (Buf.new ⟨2, 3⟩) = some b ∧
      ({ SData.new ⟨2, 3⟩ with buf := b } : SData).updateSize ⟨2, 2⟩ = some d ∧
      cellAt d.buf ⟨1, 0⟩ = some ⟨none, none, 0#8, ['x']⟩ ∧
      ({ d with w := (demoSess ⟨2, 3⟩ [.all]).s.w } : Scr).refresh demoEnv demoDB = .ok s' ∧
      sentTexts s'.w.log = [encode [' '], encode ['世'], encode [' ']] := by
  have h : ((runOps demoEnv [.writeAt ⟨0, 1⟩ ['世'], .writeAt ⟨1, 0⟩ ['x']] (Buf.new ⟨2, 3⟩)).bind fun b =>
      (({ SData.new ⟨2, 3⟩ with buf := b } : SData).updateSize ⟨2, 2⟩).bind fun d =>
      match ({ d with w := (demoSess ⟨2, 3⟩ [.all]).s.w } : Scr).refresh demoEnv demoDB with
      | .ok s' => some (cellAt d.buf ⟨1, 0⟩, sentTexts s'.w.log)
      | _ => none) = some (some ⟨none, none, 0#8, ['x']⟩, [encode [' '], encode ['世'], encode [' ']]) := by
    decide +kernel
  simp only [Option.bind_eq_some_iff] at h
  obtain ⟨b, e1, d, e2, h⟩ := h
  split at h
  · rename_i s' e3
    simp only [Option.some.injEq, Prod.mk.injEq] at h
    exact ⟨b, d, s', e1, e2, h.1, e3, h.2⟩
  · cases h

/-! ## C20 -/

/-- C20, what is true: after a session without two-column characters in which refreshes have failed,
a successful refresh leaves the terminal showing the buffer except in at most as many cells as
refreshes failed since the last resize; the cursor and the attributes are right. Missing: the
full claim is false, see below. -/
theorem C20_repair_partial {u : UEnv} (hT : TableOk u) {env : WEnv} (hdb : DrawDB env) {z : Size}
    (hz : ScreenSize z) {x y : Sess} (hx : Opened u env z x) (steps : List SStep)
    (hs : ∀ st ∈ steps, NarrowStep u st) (rs : List Bool)
    (h : runS u env (steps ++ [.refresh]) x = some (rs ++ [true], y)) :
    ∃ b, runOps u (steps.filterMap SStep.asOp) (Buf.new z) = some b ∧
      (∃ bad : List Cursor, bad.length ≤ failures 0 steps rs ∧
        ∀ p c, InBounds p b.size → p ∉ bad → cellAt b p = some c → y.t.cell p = picture u c) ∧
      y.t.cur = some (target b) ∧ y.t.attrs = .plain ∧
      y.s.w.pending = [] ∧ y.s.w.dev = logBytes env y.s.w.log := by
  obtain ⟨b, bad, h1, h2, h3, h4, h5, h6, h7, h8⟩ := narrow_end hT hdb hz hx hs h
  have hc := h4.atTarget (by obtain ⟨a, d, e⟩ := h5 (target y.s.buf); rw [e]; intro h; cases h)
  have hshow : ∀ p c, InBounds p y.s.buf.size → p ∉ bad.map (posOf y.s.buf.size) →
      cellAt y.s.buf p = some c → y.t.cell p = picture u c := by
    intro p c hin hp hcell
    refine h4.shows hin hcell (fun hm => hp ?_) (noWide_noRight h6 p)
    rw [List.mem_map]
    exact ⟨_, hm, posOf_numOf' hin⟩
  rw [h2] at hc hshow
  exact ⟨b, h1, ⟨bad.map (posOf b.size), by simpa using h3, hshow⟩, hc,
    by rw [h4.lk.term, h4.plain]; rfl, h7, h8⟩

theorem encode_marks (n : Nat) : (encode ('a' :: List.replicate n '\u0301')).length = 1 + 2 * n := by
  unfold encode
  rw [List.flatMap_cons, List.length_append]
  have h1 : (String.utf8EncodeChar 'a').length = 1 := by decide
  have h2 : (String.utf8EncodeChar '\u0301').length = 2 := by decide
  rw [h1]
  congr 1
  induction n with
  | zero => rfl
  | succ n ih =>
    rw [List.replicate_succ, List.flatMap_cons, List.length_append, ih, h2]
    omega

/-- An `a` with `n` accents. -/
def longText (n : Nat) : List Char := 'a' :: List.replicate n '\u0301'

/-- C20 is false: a cell is recorded as shown before it is sent. Here the system refuses the write
in the first refresh; the second refresh succeeds, but does not send the cell again, and the
terminal keeps showing a blank. The cell holds any text longer than the output buffer, for instance
an `a` with 5000 accents. -/
theorem C20_lost_cell_refuted (n : Nat) (hn : 8192 < 1 + 2 * n) :
    ∃ x y : Sess, Opened demoEnv demoDB ⟨1, 1⟩ x ∧
      runS demoEnv demoDB [.draw (.writeStr (longText n)), .refresh, .refresh] x =
        some ([true, false, true], y) ∧
      cellAt y.s.buf ⟨0, 0⟩ = some ⟨none, none, 0#8, longText n⟩ ∧
      y.t.cell ⟨0, 0⟩ = .narrow [' '] .plain ∧ y.s.w.pending = [] := by
  let x := demoSess ⟨1, 1⟩ [.fail, .all]
  obtain ⟨b1, b2, e1, e2, c1, g1, -⟩ := C15_marks_attach_partial demoEnv (Buf.new ⟨1, 1⟩)
    (new_inv (by decide)) 'a' ⟨by decide, by decide, by decide⟩ (by decide)
    (List.replicate n '\u0301') (fun m hm => by
      rw [List.eq_of_mem_replicate hm]; exact ⟨by decide, by decide⟩)
  have hrun : (BufOp.writeStr (longText n)).run demoEnv (Buf.new ⟨1, 1⟩) = some b2 := by
    show (Buf.writeStr demoEnv (Buf.new ⟨1, 1⟩) (longText n)).map (·.1) = some b2
    unfold longText
    rw [e2]; rfl
  obtain ⟨hsz, hbk, -⟩ := op_effect demo_table.space (by nofun) hrun
  have hcur : b2.cursor = ⟨1, 0⟩ := by
    rw [c1]
    have h : ((Buf.new ⟨1, 1⟩).writeStr demoEnv ['a']).map (fun p => p.1.cursor) = some ⟨1, 0⟩ := by
      decide
    rw [e1] at h
    exact Option.some.inj h
  have hb : b2.buffer[0]? = some ⟨none, none, 0#8, longText n⟩ := by
    have : cellAt b2 ⟨0, 0⟩ = b2.buffer[0]? := by unfold cellAt; simp
    rw [← this]; exact g1
  have hbk0 : b2.back[0]? = some Cell.default := by rw [hbk]; rfl
  generalize hc : (⟨none, none, 0#8, longText n⟩ : Cell) = c at hb
  have hne : c.text ≠ [] := by rw [← hc]; exact List.cons_ne_nil _ _
  have hcd : c ≠ Cell.default := by
    rw [← hc]
    intro h
    have := congrArg (fun c : Cell => c.text.length) h
    simp [longText, Cell.default] at this
    omega
  have hsk : skipOf demoEnv c 0 = 0 := by unfold skipOf; split <;> rfl
  have harea : b2.size.area = 1 := by rw [hsz]; rfl
  have hw0 : clearAttributes demoDB x.s.w = .ok x.s.w := by decide +kernel
  have hw1 : setAttrs demoDB none none 0#8 x.s.w = .ok x.s.w := by decide +kernel
  have hw2 : flush x.s.w = .err .os { x.s.w with os := [.all] } := by decide +kernel
  have hw3 : writeBytes (encode c.text) x.s.w = .err .os { x.s.w with os := [.all] } := by
    unfold writeBytes
    rw [if_pos, hw2]
    · rfl
    · have h1 : (encode c.text).length = 1 + 2 * n := by
        rw [← hc]; exact encode_marks n
      have h2 : x.s.w.capacity = 8192 := by decide +kernel
      rw [h1, h2]; omega
  let s0 : Scr := { x.s with buf := b2 }
  let s1 : Scr := { s0.mark 0 c with w := { x.s.w with os := [.all] } }
  have hdraw : (s0.mark 0 c).drawCell demoDB (posOf b2.size 0) c = .err .os s1 := by
    have hp : posOf b2.size 0 = ⟨0, 0⟩ := by rw [hsz]; rfl
    have hm : (s0.mark 0 c).moveCursor demoDB ⟨0, 0⟩ = .ok (s0.mark 0 c) := by
      unfold Scr.moveCursor
      rw [if_neg]
      intro h; exact h rfl
    have ha : (s0.mark 0 c).onW (setAttrs demoDB c.fg c.bg c.style) = .ok (s0.mark 0 c) :=
      onW_noop (by rw [← hc]; exact hw1)
    unfold Scr.drawCell
    rw [hp, hm, andThen_ok, ha, andThen_ok, onW_def]
    have : (s0.mark 0 c).w = x.s.w := rfl
    rw [this, hw3]
    rfl
  have hr1 : s0.refresh demoEnv demoDB = .err .os s1 := by
    have q1 : s0.clearIfNeeded demoDB = .ok s0 := rfl
    have q2 : s0.onW (clearAttributes demoDB) = .ok s0 := onW_noop hw0
    rw [refresh_eq, q1, andThen_ok, q2, andThen_ok]
    have : s0.buf.size.area = 1 := harea
    rw [this, drawLoop_draw (s := s0) hb hne hbk0 hcd (by show b2.size.columns ≠ 0; rw [hsz]; decide),
      hdraw]
    rfl
  have hw4 : clearAttributes demoDB { x.s.w with os := [.all] } = .ok { x.s.w with os := [.all] } := by
    decide +kernel
  have hw5 : (match flush { x.s.w with os := [.all] } with
      | .ok w => some (w.pending, w.log)
      | _ => none) = some ([], x.s.w.log) := by decide +kernel
  cases hf : flush { x.s.w with os := [.all] } with
  | err e w => rw [hf] at hw5; cases hw5
  | stop e => rw [hf] at hw5; cases hw5
  | ok w2 =>
    rw [hf] at hw5
    replace hw5 : w2.pending = [] ∧ w2.log = x.s.w.log := by
      have := Option.some.inj hw5
      exact ⟨congrArg Prod.fst this, congrArg Prod.snd this⟩
    have hr2 : s1.refresh demoEnv demoDB = .ok { s1 with w := w2 } := by
      have q1 : s1.clearIfNeeded demoDB = .ok s1 := rfl
      have q2 : s1.onW (clearAttributes demoDB) = .ok s1 := onW_noop hw4
      have hk : s1.buf.back[0]? = some c := by
        show (b2.back.set 0 c)[0]? = some c
        rw [List.getElem?_set, if_pos rfl, if_pos]
        rw [hbk]; decide
      have q3 : s1.drawLoop demoEnv demoDB (1 + 1) (0, 1) = .ok s1 := by
        rw [drawLoop_same (s := s1) hb hne hk, hsk]
        exact drawLoop_done ..
      have q4 : s1.placeCursor demoDB = .ok s1 := by
        have hz : s1.buf.size = ⟨1, 1⟩ := hsz
        rw [placeCursor_eq demoDB s1 (by rw [hz]; decide)]
        unfold Scr.moveCursor
        rw [if_neg]
        intro h
        apply h
        show Cursor.default = target s1.buf
        unfold target
        rw [show s1.buf.cursor = ⟨1, 0⟩ from hcur, hz]
        decide
      have q5 : s1.onW flush = .ok { s1 with w := w2 } := onW_ok (s := s1) hf
      have harea1 : s1.buf.size.area = 1 := harea
      rw [refresh_eq, q1, andThen_ok, q2, andThen_ok, harea1, q3, andThen_ok, q2, andThen_ok, q4,
        andThen_ok, q5]
    refine ⟨x, ⟨{ s1 with w := w2 }, x.t⟩, demo_opened _ (by decide) _
      (by unfold NoShortWrites; simp), ?_, ?_, rfl, hw5.1⟩
    · have r1 : (SStep.draw (.writeStr (longText n))).run demoEnv demoDB x = some (true, ⟨s0, x.t⟩) := by
        show ((BufOp.writeStr (longText n)).run demoEnv (Buf.new ⟨1, 1⟩)).map _ = _
        rw [hrun]; rfl
      have r2 : SStep.refresh.run demoEnv demoDB ⟨s0, x.t⟩ = some (false, ⟨s1, x.t⟩) := by
        simp only [SStep.run, hr1]
        have : s1.w.log.drop s0.w.log.length = [] := by
          show x.s.w.log.drop x.s.w.log.length = []
          simp
        rw [this]; rfl
      have r3 : SStep.refresh.run demoEnv demoDB ⟨s1, x.t⟩ = some (true, ⟨{ s1 with w := w2 }, x.t⟩) := by
        simp only [SStep.run, hr2]
        have : w2.log.drop s1.w.log.length = [] := by
          rw [hw5.2]
          show x.s.w.log.drop x.s.w.log.length = []
          simp
        rw [this]; rfl
      simp only [runS, r1, r2, r3]
      rfl
    · show cellAt b2 ⟨0, 0⟩ = _
      rw [← hc]; exact g1

example : 8192 < 1 + 2 * 5000 := by decide

end Mortal
