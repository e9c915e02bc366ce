import Verif.Lemmas.Portable
import Verif.Props.Live
import Verif.Props.WinLive
import Verif.Props.DrawPanic
import Verif.Props.WinStale

/-!
# The same program draws the same picture on Unix and on Windows (C81)

Both systems are taken together here: one program, once with a screen on a terminal and once with a
screen on a console. `Spec/Portable.lean` says when a console shows the same picture as a terminal.
-/

namespace Mortal
open Spec

/-- **C81.** A program that draws only one-column characters runs on Unix and on Windows, with windows of
the same size. On both systems it draws, refreshes, waits and reads in any order, while the window
changes its size and refreshes may fail; only what was drawn and which sizes were reported has to be the
same, one after another. When both screens know the size of their windows and have been refreshed, the
console shows the same picture as the terminal, with the cursor in the same place. -/
theorem C81_live {u : UEnv} (hT : TableOk u)
    -- on Unix
    {env : REnv} (hg : GoodDB env.w) (hdb : DrawDB env.w) {cfg : PrepareConfig} {s0 s1 : US}
    {scr : ScreenU} {t0 t1 : Term} (hu : UsedBefore env.w s0 t0) (hw : GoodWindow s0)
    (hnew : screenNew env cfg s0 = .ok scr s1) (hl : Looks u t0 s0 s1 t1)
    {es : List LiveEv} {op : ScrOp} {r : URet} {kept : Bool} {y : Spec.Live}
    (hrun : LiveRun u env ⟨scr.data, s1, t1⟩ (es ++ [.call op r kept]) y)
    (hn : ∀ op' r' k', LiveEv.call op' r' k' ∈ es ++ [LiveEv.call op r kept] → NarrowCall u op')
    (hop : op = .refresh ∨ ∃ gs, op = .guard gs)
    (hup : upToDate (decide (SizeKept s0 s1)) es = true)
    -- on Windows
    {t : WTerm} {wcfg : PrepareConfig} (hz : ConSize scr.data.buf.size) {wx wy : WSess}
    (hx : WOpened u t wcfg scr.data.buf.size wx)
    (hwin : ∀ o, wx.c.outs wx.s.w.outH = some o → WholeWindow o) (steps : List LiveStep)
    (hs : ∀ st ∈ steps, st.Narrow u) {current : Prop}
    (h : LivePath u t (steps ++ [.refresh]) wx True wy current) (hc : current)
    -- the same program
    (same : (es ++ [LiveEv.call op r kept]).flatMap LiveEv.asked = steps.filterMap LiveStep.asOp) :
    ∃ o, wy.c.outs wy.s.w.outH = some o ∧ wy.c.active = wy.s.w.outH ∧
      SamePicture t.defAttrs y.t o ∧ o.glyph.cur = y.t.cur ∧ y.t.cur.isSome := by
  obtain ⟨b, h1, d1, d2, -⟩ := C59_live_screen hT hg hdb hu hw hnew hl hrun hn hop hup
  obtain ⟨b', h2, h3⟩ := C77_live hT hz hx hwin steps hs h
  obtain ⟨o, o1, o2, o3, o4, -⟩ := h3 hc
  rw [same, h2] at h1
  cases h1
  have hgrid := C10_sound u hT _ hz.1 _ (live_narrow_sizes hs) b h2
  exact ⟨o, o1, o2, samePicture_shown hgrid d1 o3, o4.trans d2.symm, by rw [d2]; rfl⟩

/-- **C81** with two-column characters, drawn so that neither system tears one (the conditions of C59 and
of C77). The cursor is in the same place unless it is wanted in the right half of a two-column
character. -/
theorem C81_live_wide {u : UEnv} (hT : TableOk u)
    -- on Unix
    {env : REnv} (hg : GoodDB env.w) (hdb : DrawDB env.w) {cfg : PrepareConfig} {s0 s1 : US}
    {scr : ScreenU} {t0 t1 : Term} (hu : UsedBefore env.w s0 t0) (hw : GoodWindow s0)
    (hnew : screenNew env cfg s0 = .ok scr s1) (hl : Looks u t0 s0 s1 t1)
    {es : List LiveEv} {op : ScrOp} {r : URet} {kept : Bool} {y : Spec.Live}
    (hrun : LiveRun u env ⟨scr.data, s1, t1⟩ (es ++ [.call op r kept]) y)
    (hn : WideHist u env scr.data s1 (es ++ [LiveEv.call op r kept]))
    (hop : op = .refresh ∨ ∃ gs, op = .guard gs)
    (hup : upToDate (decide (SizeKept s0 s1)) es = true)
    -- on Windows
    {t : WTerm} {wcfg : PrepareConfig} (hz : ConSize scr.data.buf.size) {wx wy : WSess}
    (hx : WOpened u t wcfg scr.data.buf.size wx)
    (hwin : ∀ o, wx.c.outs wx.s.w.outH = some o → WholeWindow o) (steps : List LiveStep)
    (hs : LiveWideRun u t wx True (steps ++ [.refresh])) {current : Prop}
    (h : LivePath u t (steps ++ [.refresh]) wx True wy current) (hc : current)
    -- the same program
    (same : (es ++ [LiveEv.call op r kept]).flatMap LiveEv.asked = steps.filterMap LiveStep.asOp) :
    ∃ b, runOps u (steps.filterMap LiveStep.asOp) (Buf.new scr.data.buf.size) = some b ∧
      ∃ o, wy.c.outs wy.s.w.outH = some o ∧ wy.c.active = wy.s.w.outH ∧
        SamePicture t.defAttrs y.t o ∧
        (¬ RightHalf u b (target b) → o.glyph.cur = y.t.cur ∧ y.t.cur.isSome) := by
  obtain ⟨b, h1, d1, d2, -⟩ := C59_live_wide hT hg hdb hu hw hnew hl hrun hn hop hup
  obtain ⟨b', h2, h3⟩ := C77_live_wide hT hz hx hwin steps hs h
  obtain ⟨o, o1, o2, o3, o4, -⟩ := h3 hc
  rw [same, h2] at h1
  cases h1
  have hsz := live_wide_sizes hs h
  rw [List.filterMap_append] at hsz
  have hgrid := C10_sound u hT _ hz.1 _ (fun s hm => hsz s (List.mem_append_left _ hm)) b h2
  exact ⟨b, h2, o, o1, o2, samePicture_shown hgrid d1 o3,
    fun hn => ⟨(o4 hn).trans (d2 hn).symm, by rw [d2 hn]; rfl⟩⟩

/-- **C81**, also where cells are uncovered with the content they were last drawn with, and so tear a
two-column character: it is the same cells on both systems. The two programs make the same drawing calls
and refreshes and read the same sizes, in the same order, and everything succeeds; what a window shows
after a change of its size may differ. -/
theorem C81_exact {u : UEnv} (hT : TableOk u) {z : Size} (hz : ConSize z)
    -- on Unix
    {env : WEnv} (hdb : DrawDB env) {x y : Sess} (hx : Opened u env z x) (steps : List SStep)
    (hs : TameRun u (Glass.new z) (steps ++ [.refresh])) (rs : List Bool) (hr : ∀ r ∈ rs, r = true)
    (h : runS u env (steps ++ [.refresh]) x = some (rs ++ [true], y))
    -- on Windows
    {t : WTerm} {cfg : PrepareConfig} {wx wy : WSess} (hwx : WOpened u t cfg z wx)
    (wsteps : List WinStep) (hw : ∀ z o, .resized z o ∈ wsteps → WholeBuffer o)
    (hp : WinStep.Path u t (wsteps ++ [.refresh]) wx wy)
    -- the same program
    (same : steps.map SStep.bare = wsteps.filterMap WinStep.asGlass) :
    ∃ b, runOps u (steps.filterMap SStep.asOp) (Buf.new z) = some b ∧
      ∃ o, wy.c.outs wy.s.w.outH = some o ∧ wy.c.active = wy.s.w.outH ∧
        SamePicture t.defAttrs y.t o ∧
        (¬ RightHalf u b (target b) → o.glyph.cur = y.t.cur ∧ y.t.cur.isSome) := by
  have hz' : ScreenSize z := ⟨hz.1, by have := hz.2.1; omega, by have := hz.2.2; omega⟩
  obtain ⟨g, g1, g2, g3, g4, g5, -⟩ := C18_wide_exact hT hdb hz' hx steps hs rs hr h
  have hs' : TameRun u (Glass.new z) ((wsteps ++ [WinStep.refresh]).filterMap WinStep.asGlass) := by
    have := tame_bare _ hs
    rw [List.map_append, same] at this
    rw [List.filterMap_append]
    exact this
  obtain ⟨g', k1, -, k3, o, k4, k5, k6, -, k7⟩ := wglass_end hT hz hwx hs' hw hp
  rw [← same, glass_run_bare, g1] at k1
  cases k1
  refine ⟨g.b, g2, o, k4, k5, ?_, fun hn => ⟨(k7 hn).trans (g5 hn).symm, by rw [g5 hn]; rfl⟩⟩
  refine samePicture_of (u := u) (S := Stale u g) k3 g3 k6.1 (fun p c hin hc => ?_) k6.2
  have h1 := g4 p hin
  simp only [Glass.refresh, hc, Option.map_some, Option.getD_some] at h1
  refine ⟨fun hr => by rw [h1, if_pos hr], fun hS => by rw [h1, if_neg hS.2.1, if_pos hS],
    fun n1 n2 => by rw [h1, if_neg n1, if_neg n2]⟩

/-! ## Concrete cases -/

theorem true_eq : (true = true) = True := propext ⟨fun _ => trivial, fun _ => rfl⟩

/-- What the console becomes: it has one column less and shows garbage. -/
def slimOut : OutBuf :=
  { demoOut with
    glyph := { demoOut.glyph with size := ⟨2, 2⟩, cell := fun _ => .torn }
    attr := fun _ => 0x42
    window := ⟨0, 0, 1, 1⟩ }

/-- On Windows: two letters are drawn, a refresh fails, the console loses a column, its new size is
read, another letter is drawn. -/
def slimOps : List LiveStep :=
  [.draw (.writeAt ⟨0, 1⟩ ['a', 'b']), .failed, .changed slimOut, .reported ⟨2, 2⟩,
   .draw (.writeAt ⟨1, 0⟩ ['c'])]

/-- The answers to the calls of the refreshes. -/
def slimOs : List ConStep :=
  [⟨[], .fail⟩, ⟨[], .info ⟨⟨2, 2⟩, ⟨0, 0⟩, 7, ⟨0, 0, 1, 1⟩⟩⟩] ++ List.replicate 3 ⟨[], .ok⟩ ++
  [⟨[], .wrote 1⟩, ⟨[], .wrote 1⟩, ⟨[], .ok⟩, ⟨[], .wrote 1⟩, ⟨[], .wrote 1⟩, ⟨[], .ok⟩]

/-- The screen after them. -/
def slimEnd : WSess :=
  ((liveW demoEnv demoTerm (slimOps ++ [.refresh]) (showOpen slimOs) true).getD (showOpen [], false)).1

/-- Non-trivial case: on Unix the window changes while the program waits, and the last call is a guard
that draws; on Windows the program refreshes at other times and one refresh fails. In the end both show
the same. -/
example : ∃ scr s1 t1 y wy o,
    screenNew demoEnvR demoCfg liveUS = .ok scr s1 ∧ Looks demoEnv liveT liveUS s1 t1 ∧
    LiveRun demoEnv demoEnvR ⟨scr.data, s1, t1⟩ (liveEvs ++ [LiveEv.call liveLast .unit true]) y ∧
    WOpened demoEnv demoTerm (winCfg .new false false) scr.data.buf.size (showOpen slimOs) ∧
    LivePath demoEnv demoTerm (slimOps ++ [.refresh]) (showOpen slimOs) True wy True ∧
    wy.c.outs wy.s.w.outH = some o ∧ SamePicture demoTerm.defAttrs y.t o ∧
    o.glyph.size = ⟨2, 2⟩ ∧ o.glyph.cell ⟨0, 1⟩ = .narrow ['a'] () ∧
    o.glyph.cell ⟨1, 0⟩ = .narrow ['c'] () ∧ y.t.cur = some ⟨1, 1⟩ := by
  obtain ⟨scr, s1, t1, y, hsz, c1, c2, c3, c4, c5, c6, c7, -, c8⟩ := live_case
  have p1 := liveW_run (u := demoEnv) (t := demoTerm) (steps := slimOps ++ [.refresh]) (x := showOpen slimOs)
    (f := true) (g := true) (showOpen [], false) (by decide +kernel)
  rw [true_eq] at p1
  have p2 : ((slimEnd.c.outs slimEnd.s.w.outH).map fun o => (o.glyph.size, o.glyph.cell ⟨0, 1⟩,
      o.glyph.cell ⟨1, 0⟩, o.glyph.cur)) =
    some (⟨2, 2⟩, .narrow ['a'] (), .narrow ['c'] (), some ⟨1, 1⟩) := by decide +kernel
  obtain ⟨o, o1, -, o2, o3, -⟩ := C81_live demo_table demo_good demo_db c1 c2 c3 c4 c5 c6
    (Or.inr ⟨_, rfl⟩) c7 (t := demoTerm) (wcfg := winCfg .new false false)
    (by rw [hsz]; unfold ConSize GoodSize; decide) (by rw [hsz]; exact showOpen_opened slimOs)
    (showOpen_whole slimOs) slimOps
    (by
      intro st hst
      simp only [slimOps, List.mem_cons, List.not_mem_nil, or_false] at hst
      rcases hst with rfl | rfl | rfl | rfl | rfl
      · exact ⟨nofun, by decide, by unfold ThinMarks; decide⟩
      · trivial
      · exact ⟨by unfold ConSize GoodSize; decide, rfl, rfl, rfl⟩
      · show ConSize _
        unfold ConSize GoodSize; decide
      · exact ⟨nofun, by decide, by unfold ThinMarks; decide⟩) p1 trivial (c8.trans rfl)
  rw [show ((liveW demoEnv demoTerm (slimOps ++ [.refresh]) (showOpen slimOs) true).getD
    (showOpen [], false)).1 = slimEnd from rfl] at p1 o1
  rw [o1, Option.map_some, Option.some.injEq] at p2
  simp only [Prod.mk.injEq] at p2
  exact ⟨scr, s1, t1, y, slimEnd, o, c3, c4, c5, by rw [hsz]; exact showOpen_opened slimOs, p1, o1, o2,
    p2.1, p2.2.1, p2.2.2.1, o3.symm.trans p2.2.2.2⟩

/-- The window loses a line while the program waits. -/
def lowUS : US :=
  { smallUS 0 with
    sched := List.replicate 7 (okStep 0) ++ ⟨[.winch], .ok 0, some ⟨1, 3⟩⟩ :: List.replicate 3 (okStep 0) }

def lowEvs : List LiveEv :=
  callsOf [.draw (.writeAt ⟨0, 0⟩ ['世']), .readEvent none]
    [(.unit, true), (.event (some (.resize ⟨1, 3⟩)), false)]

/-- The answers of the console. -/
def lowOs : List ConStep :=
  [⟨[], .info ⟨⟨3, 1⟩, ⟨0, 0⟩, 7, ⟨0, 0, 2, 0⟩⟩⟩, ⟨[], .ok⟩, ⟨[], .ok⟩,
    ⟨[], .ok⟩, ⟨[], .wrote 1⟩, ⟨[], .ok⟩, ⟨[], .wrote 1⟩, ⟨[], .ok⟩]

/-- Non-trivial case of `C81_live_wide`: a two-column character, and a window that becomes smaller. -/
example : ∃ scr s1 t1 y wy o,
    screenNew demoEnvR demoCfg lowUS = .ok scr s1 ∧ Looks demoEnv liveT lowUS s1 t1 ∧
    LiveRun demoEnv demoEnvR ⟨scr.data, s1, t1⟩ (lowEvs ++ [LiveEv.call .refresh .unit true]) y ∧
    WideHist demoEnv demoEnvR scr.data s1 (lowEvs ++ [LiveEv.call .refresh .unit true]) ∧
    WOpened demoEnv demoTerm (winCfg .new false false) scr.data.buf.size (showOpen lowOs) ∧
    LivePath demoEnv demoTerm ([.draw (.writeAt ⟨0, 0⟩ ['世']), .changed liveOut, .reported ⟨1, 3⟩] ++
      [.refresh]) (showOpen lowOs) True wy True ∧
    wy.c.outs wy.s.w.outH = some o ∧ SamePicture demoTerm.defAttrs y.t o ∧
    o.glyph.size = ⟨1, 3⟩ ∧ o.glyph.cell ⟨0, 0⟩ = .left ['世'] () ∧ o.glyph.cell ⟨0, 1⟩ = .right := by
  obtain ⟨scr, s1, hnew, hf⟩ := okOf_any (r := screenNew demoEnvR demoCfg lowUS)
    (f := fun x => decide (x.1.data.buf.size = ⟨2, 3⟩ ∧ SizeKept lowUS x.2 ∧
      (liveTrace demoEnv demoEnvR [.draw (.writeAt ⟨0, 0⟩ ['世']), .readEvent none, .refresh]
        x.1.data x.2).map Prod.fst =
        some [(.unit, true), (.event (some (.resize ⟨1, 3⟩)), false), (.unit, true)] ∧
      WideHist demoEnv demoEnvR x.1.data x.2 (lowEvs ++ [LiveEv.call .refresh .unit true])))
    (by decide +kernel)
  obtain ⟨hsz, hk, ht, hh⟩ := of_decide_eq_true hf
  obtain ⟨⟨rs, d, s⟩, ht, hrs⟩ := Option.map_eq_some_iff.mp ht
  cases hrs
  obtain ⟨t1, hl⟩ := looks_exists demoEnv liveT lowUS s1
  obtain ⟨t2, hr⟩ := live_of_trace t1 ht
  have p1 := liveW_run (u := demoEnv) (t := demoTerm) (x := showOpen lowOs) (f := true) (g := true)
    (steps := [.draw (.writeAt ⟨0, 0⟩ ['世']), .changed liveOut, .reported ⟨1, 3⟩] ++ [.refresh])
    (showOpen [], false) (by decide +kernel)
  rw [true_eq] at p1
  obtain ⟨w1, w2⟩ := wlive_wide_case
  have hu : UsedBefore demoEnvR.w lowUS liveT := by
    refine ⟨⟨[], lowUS.w.os, ?_, rfl⟩, rfl, rfl⟩
    intro n hn
    have : ∀ r ∈ lowUS.w.os, r = .all ∨ r = .eintr := by decide
    rcases this _ hn with h | h <;> cases h
  have hw : GoodWindow lowUS := by
    refine ⟨by unfold ScreenSize GoodSize; decide, ?_, by decide⟩
    intro st hst z hz
    have : ∀ st ∈ lowUS.sched, st.resize = none ∨ st.resize = some ⟨1, 3⟩ := by decide
    rcases this st hst with h | h
    · rw [h] at hz; cases hz
    · rw [h] at hz; cases hz; unfold ScreenSize GoodSize; decide
  obtain ⟨b, -, o, o1, -, o2, -⟩ := C81_live_wide demo_table demo_good demo_db hu hw hnew hl hr hh
    (Or.inl rfl) (by rw [decide_eq_true hk]; rfl) (t := demoTerm) (wcfg := winCfg .new false false)
    (by rw [hsz]; unfold ConSize GoodSize; decide) (by rw [hsz]; exact showOpen_opened lowOs)
    (showOpen_whole lowOs) _ w1 p1 trivial rfl
  rw [Option.bind_eq_some_iff] at w2
  obtain ⟨r, w3, w4⟩ := w2
  have w3 : liveW demoEnv demoTerm ([.draw (.writeAt ⟨0, 0⟩ ['世']), .changed liveOut, .reported ⟨1, 3⟩] ++
    [.refresh]) (showOpen lowOs) true = some r := w3
  have hz : (liveW demoEnv demoTerm ([.draw (.writeAt ⟨0, 0⟩ ['世']), .changed liveOut,
      .reported ⟨1, 3⟩] ++ [.refresh]) (showOpen lowOs) true).bind (fun r =>
        (r.1.c.outs r.1.s.w.outH).map fun o => o.glyph.size) = some ⟨1, 3⟩ := by decide +kernel
  rw [w3] at hz p1 o1
  simp only [Option.getD_some, Option.bind_some] at hz p1 o1
  rw [o1, Option.map_some, Option.some.injEq] at hz
  rw [Option.map_eq_some_iff] at w4
  obtain ⟨v, w5, w6⟩ := w4
  unfold seen at w5
  rw [o1] at w5
  simp only [Option.map_some, Option.some.injEq, List.map_cons, List.map_nil] at w5
  simp only [← w5, Prod.mk.injEq, List.cons.injEq] at w6
  exact ⟨scr, s1, t1, _, r.1, o, hnew, hl, hr, hh, by rw [hsz]; exact showOpen_opened lowOs, p1, o1, o2, hz,
    w6.1.1.1.1, w6.1.1.2.1.1⟩

/-- Non-trivial case of `C81_exact`: after the last refresh, which returns `Ok` on both systems, the
same cell shows a torn character on both. -/
example : ∃ x y wy o, Opened demoEnv demoDB ⟨2, 3⟩ x ∧
    runS demoEnv demoDB (staleSteps ++ [.refresh]) x = some ([true, true, true, true, true] ++ [true], y) ∧
    WOpened demoEnv demoTerm (winCfg .new false false) ⟨2, 3⟩ (showOpen wstaleOs) ∧
    WinStep.Path demoEnv demoTerm (wstaleSteps ++ [.refresh]) (showOpen wstaleOs) wy ∧
    wy.c.outs wy.s.w.outH = some o ∧ SamePicture demoTerm.defAttrs y.t o ∧
    y.t.cell ⟨0, 1⟩ = .torn ∧ o.glyph.cell ⟨0, 1⟩ = .torn := by
  have h1 : (runS demoEnv demoDB (staleSteps ++ [.refresh]) (demoSess ⟨2, 3⟩ [.all, .all, .all])).map
      (fun r => (r.1, r.2.t.cell ⟨0, 1⟩, r.2.t.size)) =
      some ([true, true, true, true, true] ++ [true], .torn, ⟨2, 3⟩) := by decide +kernel
  rw [Option.map_eq_some_iff] at h1
  obtain ⟨⟨rs, y⟩, e1, e2⟩ := h1
  simp only [Prod.mk.injEq] at e2
  obtain ⟨rfl, e2, e3⟩ := e2
  have hx := demo_opened ⟨2, 3⟩ (by decide) [.all, .all, .all] (by unfold NoShortWrites; simp)
  have hp := pathW_sound _ _ _ (show pathW demoEnv demoTerm (wstaleSteps ++ [.refresh]) (showOpen wstaleOs) =
    some wstaleEnd from some_getD _ (by decide +kernel))
  obtain ⟨b, -, o, o1, -, o2, -⟩ := C81_exact demo_table (z := ⟨2, 3⟩) (by unfold ConSize GoodSize; decide)
    demo_db hx staleSteps wstale_case.1 _ (by simp) e1 (showOpen_opened wstaleOs) wstaleSteps
    (by intro z o h; simp [wstaleSteps] at h) hp rfl
  refine ⟨_, y, _, o, hx, e1, showOpen_opened _, hp, o1, o2, e2, ?_⟩
  rw [o2.cell _ (by rw [e3]; decide), e2]
  rfl

end Mortal
