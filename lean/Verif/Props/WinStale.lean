import Verif.Lemmas.WinStale
import Verif.Props.Stale
import Verif.Props.WinShow

/-!
# Screens with two-column characters on Windows: exactly what is wrong, and when (C47)

`Spec/Stale.lean` describes what successive refreshes leave, without the screen and without a console.
-/

namespace Mortal
open Spec

/-- C47 with two-column characters, also when cells are uncovered with the content they were last drawn
with: a screen is opened; drawing calls, refreshes, resizes and reads follow in any number and order;
all refreshes return `Ok`. After a final refresh every cell of the visible console buffer shows what it
should, with its attributes, except for the stale cells of the description, which show a torn character.
The cursor is right unless it is wanted in a right half; the attributes for further text are the default
ones. Two-column characters must fit into the line, and no stale cell may be about to hold one. -/
theorem C47_wide_exact {u : UEnv} (hT : TableOk u) {t : WTerm} {cfg : PrepareConfig} {z : Size}
    (hz : ConSize z) {x y : WSess} (hx : WOpened u t cfg z x) (steps : List WinStep)
    (hs : TameRun u (Glass.new z) ((steps ++ [WinStep.refresh]).filterMap WinStep.asGlass))
    (hw : ∀ z o, .resized z o ∈ steps → WholeBuffer o)
    (h : WinStep.Path u t (steps ++ [.refresh]) x y) :
    ∃ g, (Glass.new z).run u (steps.filterMap WinStep.asGlass) = some g ∧
      runOps u (steps.filterMap WinStep.asOp) (Buf.new z) = some g.b ∧
      ∃ o, y.c.outs y.s.w.outH = some o ∧ y.c.active = y.s.w.outH ∧ ConGlass u t.defAttrs o g ∧
        (¬ RightHalf u g.b (target g.b) → o.glyph.cur = some (target g.b)) ∧ o.word = t.defAttrs := by
  obtain ⟨g, h1, h2, -, o, h3, h4, h5, h6, h7⟩ := wglass_end hT hz hx hs hw h
  exact ⟨g, h1, h2, o, h3, h4, h5, h7, h6⟩

/-- C47. In these sessions the console shows the buffer after the refresh if and only if no cell was
stale before it. -/
theorem C47_wide_iff {u : UEnv} (hT : TableOk u) {t : WTerm} {cfg : PrepareConfig} {z : Size}
    (hz : ConSize z) {x y : WSess} (hx : WOpened u t cfg z x) (steps : List WinStep)
    (hs : TameRun u (Glass.new z) ((steps ++ [WinStep.refresh]).filterMap WinStep.asGlass))
    (hw : ∀ z o, .resized z o ∈ steps → WholeBuffer o)
    (h : WinStep.Path u t (steps ++ [.refresh]) x y) :
    ∃ g, (Glass.new z).run u (steps.filterMap WinStep.asGlass) = some g ∧
      runOps u (steps.filterMap WinStep.asOp) (Buf.new z) = some g.b ∧
      ∃ o, y.c.outs y.s.w.outH = some o ∧
        (ConShows u t.defAttrs o g.b ↔ ∀ p, ¬ Stale u g p) := by
  obtain ⟨g, h1, h2, hb, o, h3, h4, h5, -⟩ := wglass_end hT hz hx hs hw h
  exact ⟨g, h1, h2, o, h3, conGlass_iff h5 hb⟩

/-! ### A concrete case -/

/-- The screen of the case. -/
def wstaleBuf (l : List (List Char)) (c : Cursor) : Buf :=
  { Buf.new ⟨2, 3⟩ with buffer := l.map fun t => ⟨none, none, 0#8, t⟩, cursor := c }

/-- The steps. -/
def wstaleSteps : List WinStep :=
  [.draw (.writeAt ⟨0, 0⟩ ['a', 'x']), .refresh, .draw (.writeAt ⟨0, 0⟩ ['世']), .refresh,
    .draw (.writeAt ⟨0, 0⟩ ['a', 'x'])]

/-- The steps meet the conditions, and leave a stale cell before the last refresh. -/
theorem wstale_case : TameRun demoEnv (Glass.new ⟨2, 3⟩)
      ((wstaleSteps ++ [WinStep.refresh]).filterMap WinStep.asGlass) ∧
    ∃ g, (Glass.new ⟨2, 3⟩).run demoEnv (wstaleSteps.filterMap WinStep.asGlass) = some g ∧
      Stale demoEnv g ⟨0, 1⟩ :=
  stale_steps (A := wstaleBuf [['a'], ['x'], [' '], [' '], [' '], [' ']] ⟨0, 2⟩)
    (W := wstaleBuf [['世'], [' '], [' '], [' '], [' '], [' ']] ⟨0, 2⟩) (by decide) (by decide)
    (by decide +kernel) (by decide +kernel) (by decide +kernel) rfl rfl (by decide) rfl
    (wide_first (by decide)) rfl ⟨'世', [], rfl, by decide⟩ ⟨by decide, by decide, fun _ _ => trivial⟩

/-- The answers to the calls of the refreshes. -/
def wstaleOs : List ConStep :=
  [⟨[], .wrote 1⟩, ⟨[], .wrote 1⟩, ⟨[], .ok⟩, ⟨[], .wrote 1⟩, ⟨[], .ok⟩, ⟨[], .ok⟩, ⟨[], .wrote 1⟩, ⟨[], .ok⟩]

/-- The session on the console. -/
def wstaleEnd : WSess :=
  (pathW demoEnv demoTerm (wstaleSteps ++ [.refresh]) (showOpen wstaleOs)).getD (showOpen [])

/-- C47 is false when a cell is uncovered with the content that was last drawn there: all calls
succeed, and after the last refresh the console does not show the buffer. -/
theorem C47_stale_refuted : ∃ (y : WSess) (b : Buf) (o : OutBuf),
    WOpened demoEnv demoTerm (winCfg .new false false) ⟨2, 3⟩ (showOpen wstaleOs) ∧
    WinStep.Path demoEnv demoTerm (wstaleSteps ++ [.refresh]) (showOpen wstaleOs) y ∧
    runOps demoEnv (wstaleSteps.filterMap WinStep.asOp) (Buf.new ⟨2, 3⟩) = some b ∧
    y.c.outs y.s.w.outH = some o ∧ ¬ ConShows demoEnv demoTerm.defAttrs o b := by
  have h1 : pathW demoEnv demoTerm (wstaleSteps ++ [.refresh]) (showOpen wstaleOs) = some wstaleEnd :=
    some_getD _ (by decide +kernel)
  have h2 := pathW_sound _ _ _ h1
  obtain ⟨c1, g, c2, c3⟩ := wstale_case
  obtain ⟨g', q1, q2, o, q3, q4⟩ := C47_wide_iff demo_table (z := ⟨2, 3⟩) (by unfold ConSize GoodSize; decide)
    (showOpen_opened wstaleOs) wstaleSteps c1
    (by intro z o h; simp [wstaleSteps] at h) h2
  rw [c2, Option.some.injEq] at q1
  subst q1
  exact ⟨_, g.b, o, showOpen_opened _, h2, q2, q3, fun hd => q4.mp hd _ c3⟩

end Mortal
