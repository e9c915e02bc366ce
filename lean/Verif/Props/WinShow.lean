import Verif.Lemmas.WinShowRun
import Verif.Lemmas.WinRead
import Verif.Lemmas.WinCheck
import Verif.Props.WinSession
import Verif.Props.Screen

/-!
# C47: what a refresh puts on a Windows console

The console is the one of `Spec/Console.lean`. The buffer `b` in the theorems is what the drawing
calls and resizes of the session alone produce; refreshes play no part in it.
-/

namespace Mortal
open Spec

/-- C47 for sessions that draw only one-column characters (with combining marks of width zero): a
screen is opened, then drawing calls, refreshes, resizes and reads follow in any number and order, all
refreshes return `Ok`. After a final refresh every cell of the visible console buffer has the text of
the screen's cell and looks as its attributes ask for, the cursor is where it should be, and the
attributes for further text are the default ones. Missing for the full claim: two-column characters,
see `C47_wide_partial`; failed calls, screens opened while other attributes are in effect, and
resizes after which the window is smaller than the buffer, where it is false, see below. -/
theorem C47_narrow_partial {u : UEnv} (hT : TableOk u) {t : WTerm} {cfg : PrepareConfig} {z : Size}
    (hz : ConSize z) {x y : WSess} (hx : WOpened u t cfg z x) (steps : List WinStep)
    (hs : ∀ st ∈ steps, WNarrow u st) (h : WinStep.Path u t (steps ++ [.refresh]) x y) :
    ∃ b, runOps u (steps.filterMap WinStep.asOp) (Buf.new z) = some b ∧
      ∃ o, y.c.outs y.s.w.outH = some o ∧ y.c.active = y.s.w.outH ∧ ConShows u t.defAttrs o b ∧
        o.glyph.cur = some (target b) ∧ o.word = t.defAttrs := by
  obtain ⟨b, h1, o, h2, h3, h4, h5, h6, h7⟩ := wshow_end hT hz hx True (Or.inr trivial)
    (fun _ => hs) h
  exact ⟨b, h1, o, h2, h3, h4, h6 (noWide_noRight (h7 trivial) _), h5⟩

/-- C47 for sessions with two-column characters in which every call is safe: no character is written
where it does not fit, no resize cuts one in half, and no cell is uncovered with the content that was
last drawn there. The cursor is right except possibly when it is in the right half of a two-column
character. Missing for the full claim: the excluded calls, and those of `C47_narrow_partial`. -/
theorem C47_wide_partial {u : UEnv} (hT : TableOk u) {t : WTerm} {cfg : PrepareConfig} {z : Size}
    (hz : ConSize z) {x y : WSess} (hx : WOpened u t cfg z x) (steps : List WinStep)
    (hs : WWideRun u t x (steps ++ [.refresh])) (h : WinStep.Path u t (steps ++ [.refresh]) x y) :
    ∃ b, runOps u (steps.filterMap WinStep.asOp) (Buf.new z) = some b ∧
      ∃ o, y.c.outs y.s.w.outH = some o ∧ y.c.active = y.s.w.outH ∧ ConShows u t.defAttrs o b ∧
        (¬ RightHalf u b (target b) → o.glyph.cur = some (target b)) ∧ o.word = t.defAttrs := by
  obtain ⟨b, h1, o, h2, h3, h4, h5, h6, -⟩ := wshow_end hT hz hx False (Or.inl hs)
    (fun h => h.elim) h
  exact ⟨b, h1, o, h2, h3, h4, h6, h5⟩

/-! ## Reading events is one of the steps -/

/-- **C47.** Reading an event other than a resize, or nothing, changes neither what the screen is to
show nor what the console shows. -/
theorem C47_read_other {u : UEnv} {t : WTerm} {x y : WSess} {timeout : Option Duration}
    {r : Option Event} {D : List WEv} (h : wsReadEvent t timeout x.s = .ok r y.s)
    (hl : y.s.w.log = x.s.w.log ++ D) (hr : x.c.Runs u t.inH D) (hp : x.c.play u t.inH D = some y.c)
    (hn : ∀ z, r ≠ some (.resize z)) : WinStep.other.To u t x y := by
  unfold wsReadEvent at h
  obtain ⟨r', s1, h1, h2⟩ := sm_bind_ok h
  obtain ⟨g1, g2⟩ := onT_ok h1
  have hend : r' = r ∧ s1 = y.s := by
    split at h2
    · rename_i z
      obtain ⟨_, s2, -, h3⟩ := sm_bind_ok h2
      have h3 : SRes.ok (some (Event.resize z)) s2 = .ok r y.s := h3
      cases h3
      exact absurd rfl (hn z)
    · have h2 : SRes.ok r' s1 = .ok r y.s := h2
      cases h2; exact ⟨rfl, rfl⟩
  obtain ⟨rfl, rfl⟩ := hend
  obtain ⟨c', p1, ⟨q, rfl⟩, k2, k3, -⟩ := (does_readEvent (u := u) x.c x.s.w t timeout).ok _ _
    (WQuiet.refl _ _) _ _ D g1 hl hr
  rw [hp, Option.some.injEq] at p1
  refine ⟨g2, k2, k3, by rw [p1], by rw [p1]⟩

/-- **C47.** The console's buffer becomes `o`, then a resize event is read: that is a resize step,
with nothing else happening. -/
theorem C47_read_resize {u : UEnv} {t : WTerm} {x y : WSess} {timeout : Option Duration} {z : Size}
    {o o0 : OutBuf} {D : List WEv} (ho : x.c.outs x.s.w.outH = some o0) (hz : o.glyph.size = z)
    (hw : o.word = o0.word) (hd : o.pend = o0.pend)
    (h : wsReadEvent t timeout x.s = .ok (some (.resize z)) y.s)
    (hl : y.s.w.log = x.s.w.log ++ D) (hr : (x.c.setOut x.s.w.outH o).Runs u t.inH D)
    (hp : (x.c.setOut x.s.w.outH o).play u t.inH D = some y.c) :
    WinStep.Path u t [.resized z o, .other] x y := by
  unfold wsReadEvent at h
  obtain ⟨r', s1, h1, h2⟩ := sm_bind_ok h
  obtain ⟨g1, g2⟩ := onT_ok h1
  split at h2
  · rename_i z'
    obtain ⟨_, s2, h3, h4⟩ := sm_bind_ok h2
    have h4 : SRes.ok (some (Event.resize z')) s2 = .ok (some (.resize z)) y.s := h4
    cases h4
    obtain ⟨u1, u2⟩ := wsUpdateSize_ok h3
    rw [g2] at u1
    rw [u2] at hl
    obtain ⟨c', p1, ⟨q, rfl⟩, k2, k3, -⟩ := (does_readEvent (u := u) _ x.s.w t timeout).ok _ _
      (WQuiet.refl _ _) _ _ D g1 hl hr
    rw [hp, Option.some.injEq] at p1
    refine ⟨⟨{ y.s.toSData with w := x.s.w }, x.c.setOut x.s.w.outH o⟩, ⟨?_, rfl, hz, o0, ho, hw, hd⟩,
      y, ⟨rfl, ?_, ?_, ?_, ?_⟩, rfl⟩
    · unfold wsUpdateSize
      rw [sm_bind, sm_get]
      dsimp only
      rw [u1, sm_bind, sm_ofPanics_some]
      rfl
    · rw [u2]; exact k2
    · rw [u2]; exact k3
    · rw [p1]
    · rw [p1]
  · rename_i hne
    have h2 : SRes.ok r' s1 = .ok (some (.resize z)) y.s := h2
    cases h2
    exact absurd rfl (hne z)

/-! ## Examples -/

/-- A screen just opened on the console of the examples. -/
def showOpen (os : List ConStep) : WSess where
  s := { SData.new ⟨2, 3⟩ with
    w := { demoSt os with outH := 3, log := sessEnter ++ [.call (.setMode 1 0x1A8) .ok] } }
  c := { sessCon with inMode := 0x1A8 }

theorem showOpen_runs : demoCon.Runs demoEnv 1 (sessEnter ++ [.call (.setMode 1 0x1A8) .ok]) ∧
    demoCon.play demoEnv 1 (sessEnter ++ [.call (.setMode 1 0x1A8) .ok]) =
      some { sessCon with inMode := 0x1A8 } := by
  constructor
  · refine con_runs_of sessEnter_runs sessEnter_play ?_
    exact runs_cons (Or.inr ⟨rfl, Or.inl rfl⟩) rfl trivial
  · rw [con_play_append, sessEnter_play]; rfl

theorem showOpen_opened (os : List ConStep) :
    WOpened demoEnv demoTerm (winCfg .new false false) ⟨2, 3⟩ (showOpen os) :=
  ⟨demoCon, demoSt (sessEnterOs ++ ⟨[], .ok⟩ :: os), ⟨⟨0x1F7, false⟩, 2⟩, demoOut, demoOut, _,
    demoCon_sane, rfl, rfl, rfl, rfl, rfl, rfl, rfl, showOpen_runs.1, showOpen_runs.2⟩

/-- What a concrete session leaves in some cells: the characters, the attribute words, the cursor. -/
def seen (cells : List Cursor) (y : WSess) : Option (List (TCell Unit × BitVec 16) × Option Cursor) :=
  (y.c.outs y.s.w.outH).map fun o => (cells.map fun p => (o.glyph.cell p, o.attr p), o.glyph.cur)

/-- Two styled characters at the end of a line; a refresh; the console becomes larger and shows
garbage; more text. -/
def showOps : List WinStep :=
  [.draw (.writeStyledAt ⟨0, 1⟩ (some .red) none 1#8 ['a', '\u0301', 'b']), .refresh, .other,
   .resized ⟨1, 3⟩ { demoOut with
      glyph := { demoOut.glyph with size := ⟨1, 3⟩, cell := fun _ => .torn }
      attr := fun _ => 0x42
      window := ⟨0, 0, 2, 0⟩ },
   .draw (.writeAt ⟨0, 0⟩ ['d'])]

/-- The answers to the calls of the refreshes. -/
def showOs : List ConStep :=
  [⟨[], .ok⟩, ⟨[], .ok⟩, ⟨[], .wrote 2⟩, ⟨[], .wrote 1⟩, ⟨[], .ok⟩, ⟨[], .ok⟩,
   ⟨[], .info ⟨⟨3, 1⟩, ⟨0, 0⟩, 7, ⟨0, 0, 2, 0⟩⟩⟩, ⟨[.input wakeRecord], .ok⟩, ⟨[], .ok⟩, ⟨[], .ok⟩,
   ⟨[], .ok⟩,   ⟨[], .wrote 1⟩, ⟨[], .ok⟩, ⟨[], .wrote 1⟩, ⟨[], .wrote 0⟩, ⟨[], .wrote 1⟩, ⟨[], .wrote 1⟩, ⟨[], .ok⟩,
   ⟨[], .ok⟩]

/-- Non-trivial case: the session meets the conditions, and runs to its end. -/
example : ConSize ⟨2, 3⟩ ∧ (∀ st ∈ showOps, WNarrow demoEnv st) := by
  refine ⟨by unfold ConSize GoodSize; decide, ?_⟩
  intro st h
  simp only [showOps, List.mem_cons, List.not_mem_nil, or_false] at h
  rcases h with rfl | rfl | rfl | rfl | rfl
  · exact ⟨nofun, by decide, by unfold ThinMarks; decide⟩
  · trivial
  · trivial
  · exact ⟨by unfold ConSize GoodSize; decide, by unfold Term.Paired; simp, rfl, rfl, rfl⟩
  · exact ⟨nofun, by decide, by unfold ThinMarks; decide⟩

example : ((pathW demoEnv demoTerm (showOps ++ [.refresh]) (showOpen showOs)).bind
    (seen [⟨0, 0⟩, ⟨0, 1⟩, ⟨0, 2⟩])) =
    some ([(.narrow ['d'] (), 7), (.narrow ['a', '\u0301'] (), 12), (.narrow ['b'] (), 12)],
      some ⟨0, 1⟩) := by decide +kernel

/-- Non-trivial case with a two-column character. -/
example :
    let steps : List WinStep := [.draw (.writeAt ⟨0, 0⟩ ['世'])]
    let x := showOpen [⟨[], .wrote 1⟩, ⟨[], .ok⟩]
    WWideRun demoEnv demoTerm x (steps ++ [.refresh]) ∧
    ((pathW demoEnv demoTerm (steps ++ [.refresh]) x).bind (seen [⟨0, 0⟩, ⟨0, 1⟩])) =
      some ([(.left ['世'] (), 7), (.right, 7)], some ⟨0, 2⟩) := by
  refine ⟨⟨⟨nofun, ⟨by decide, by decide, fun _ _ => trivial⟩, by unfold ThinMarks; decide⟩,
    fun x' e => ⟨?_, fun _ _ => trivial⟩⟩, by decide +kernel⟩
  rintro - o ho p - hr
  obtain ⟨b, -, rfl⟩ := e
  cases ho
  have hr : (if InBounds p demoOut.fresh.glyph.size ∧ InBounds p ⟨2, 3⟩ then TCell.narrow [' '] ()
    else TCell.narrow [' '] ()) = TCell.right := hr
  rw [ite_self] at hr
  cases hr

/-! ## Refutations -/

/-- A way for a console not to show a buffer: a cell in the first column. -/
theorem not_conShows {u : UEnv} {d : BitVec 16} {o : OutBuf} {b : Buf} {l : Nat} {cell : Cell}
    (hin : InBounds ⟨l, 0⟩ b.size) (hc : cellAt b ⟨l, 0⟩ = some cell)
    (h : o.glyph.cell ⟨l, 0⟩ = glyphOf u cell → ¬ Dressed d (o.attr ⟨l, 0⟩) cell) :
    ¬ ConShows u d o b := by
  intro hs
  obtain ⟨h1, h2⟩ := (hs.2 _ _ hin hc).1 (fun hr => absurd hr.1 (by simp))
  exact h h1 h2

theorem some_getD {α : Type} {o : Option α} (d : α) (h : o.isSome = true) : o = some (o.getD d) := by
  cases o with
  | none => cases h
  | some a => rfl

/-- The console of the examples when the terminal has put a blue background into effect. -/
def blueCon : Con := demoCon.setOut 2 { demoOut with word := 0x17 }

/-- The state of the terminal then. -/
def blueSt (os : List ConStep) : WinSt := { demoSt os with theme := ⟨none, some .blue, .empty⟩ }

/-- The answers while a screen is opened there. -/
def blueOs : List ConStep :=
  [⟨[], .info { sessInfo with attrs := 0x17 }⟩, ⟨[], .info { sessInfo with attrs := 0x17 }⟩,
    ⟨[], .handle 3⟩, ⟨[], .ok⟩, ⟨[], .ok⟩, ⟨[], .mode 3⟩, ⟨[], .ok⟩, ⟨[], .mode 0x1F7⟩, ⟨[], .ok⟩]

/-- The calls. -/
def blueLog : List WEv :=
  [.call (.getInfo 2) (.info { sessInfo with attrs := 0x17 }),
    .call (.getInfo 2) (.info { sessInfo with attrs := 0x17 }),
    .call .create (.handle 3), .call (.setBufSize 3 ⟨3, 2⟩) .ok, .call (.setActive 3) .ok,
    .call (.getMode 3) (.mode 3), .call (.setMode 3 1) .ok, .call (.getMode 1) (.mode 0x1F7),
    .call (.setMode 1 0x1A8) .ok]

/-- The screen. -/
def blueOpen : WSess where
  s := { SData.new ⟨2, 3⟩ with w := { blueSt [⟨[], .ok⟩] with outH := 3, log := blueLog } }
  c := (checkPlay demoEnv 1 blueLog blueCon).getD blueCon

/-- The screen after a refresh. -/
def blueEnd : WSess := (pathW demoEnv demoTerm [.refresh] blueOpen).getD blueOpen

/-- C47 is false for a screen opened while attributes are in effect: the new console buffer has them
in all its cells, the screen takes these for plain ones. Everything succeeds and nothing is drawn; the
cells should be plain, but after the refresh they still have a blue background. -/
theorem C47_opened_in_color_refuted : ∃ (x y : WSess) (old : WScreen) (o : OutBuf),
    blueCon.Sane 1 ∧ InEffect demoTerm blueCon 2 (blueSt []).theme ∧
    winScreenNew demoTerm (winCfg .new false false) (blueSt (blueOs ++ [⟨[], .ok⟩])) =
      .ok (old, x.s.toSData) x.s.w ∧
    blueCon.Runs demoEnv 1 x.s.w.log ∧ blueCon.play demoEnv 1 x.s.w.log = some x.c ∧
    WinStep.Path demoEnv demoTerm [.refresh] x y ∧ y.c.outs y.s.w.outH = some o ∧
    o.attr ⟨0, 0⟩ = 0x17 ∧ y.s.buf = Buf.new ⟨2, 3⟩ ∧
    ¬ ConShows demoEnv demoTerm.defAttrs o (Buf.new ⟨2, 3⟩) := by
  have h1 : checkPlay demoEnv 1 blueLog blueCon = some blueOpen.c := some_getD blueCon (by decide +kernel)
  have h2 : pathW demoEnv demoTerm [.refresh] blueOpen = some blueEnd :=
    some_getD blueOpen (by decide +kernel)
  have h3 : ((blueEnd.c.outs blueEnd.s.w.outH).map fun o => o.attr ⟨0, 0⟩) = some 0x17 := by
    decide +kernel
  have h4 : blueEnd.s.buf = Buf.new ⟨2, 3⟩ := by decide +kernel
  generalize blueEnd = y at h2 h3 h4
  rw [Option.map_eq_some_iff] at h3
  obtain ⟨o, h5, h6⟩ := h3
  obtain ⟨g1, g2⟩ := checkPlay_sound _ _ _ h1
  refine ⟨blueOpen, y, ⟨⟨0x1F7, false⟩, 2⟩, o, ?_, ⟨_, rfl, by decide +kernel⟩, by decide +kernel,
    g1, g2, pathW_sound _ _ _ h2, h5, h6, h4, ?_⟩
  · exact {
      active := ⟨_, rfl⟩
      invalid := rfl
      input := rfl
      small := by
        intro h o ho
        by_cases h2 : h = 2
        · subst h2; cases ho; decide
        · have : blueCon.outs h = none := (if_neg h2).trans (if_neg h2)
          rw [this] at ho; cases ho }
  · refine not_conShows (l := 0) (cell := Cell.default) ⟨by decide, by decide⟩ (by decide +kernel) ?_
    intro _ h
    unfold Dressed at h
    rw [h6] at h
    exact absurd h (by decide +kernel)

/-- The only line of the window of a console whose buffer has two. -/
def tallOut : OutBuf :=
  { demoOut with
    glyph := { demoOut.glyph with size := ⟨2, 1⟩, cell := fun _ => .narrow ['x'] (), cur := some ⟨0, 0⟩ }
    window := ⟨0, 0, 0, 0⟩ }

/-- The console buffer becomes narrower than its window; something is drawn. -/
def tallOps : List WinStep := [.resized ⟨2, 1⟩ tallOut, .draw (.writeAt ⟨0, 0⟩ ['a'])]

/-- The answers to the calls of the refresh. -/
def tallOs : List ConStep :=
  [⟨[], .info ⟨⟨1, 2⟩, ⟨0, 0⟩, 7, ⟨0, 0, 0, 0⟩⟩⟩, ⟨[], .ok⟩, ⟨[], .ok⟩, ⟨[], .wrote 1⟩, ⟨[], .ok⟩,
    ⟨[], .wrote 1⟩, ⟨[], .ok⟩]

/-- The screen after the refresh. -/
def tallEnd : WSess :=
  (pathW demoEnv demoTerm (tallOps ++ [.refresh]) (showOpen tallOs)).getD (showOpen [])

/-- C47 is false when, at a resize, only a part of the console buffer is in its window: the window is
moved down and the cursor placed at its top, but the screen takes the cursor for being where it was.
Everything succeeds; the first line still shows what it did before the resize. -/
theorem C47_small_window_refuted : ∃ (y : WSess) (o : OutBuf),
    WOpened demoEnv demoTerm (winCfg .new false false) ⟨2, 3⟩ (showOpen tallOs) ∧
    WinStep.Path demoEnv demoTerm (tallOps ++ [.refresh]) (showOpen tallOs) y ∧
    y.c.outs y.s.w.outH = some o ∧ o.glyph.cell ⟨0, 0⟩ = .narrow ['x'] () ∧
    cellAt y.s.buf ⟨0, 0⟩ = some { Cell.default with text := ['a'] } ∧
    ¬ ConShows demoEnv demoTerm.defAttrs o y.s.buf := by
  have h2 : pathW demoEnv demoTerm (tallOps ++ [.refresh]) (showOpen tallOs) = some tallEnd :=
    some_getD (showOpen []) (by decide +kernel)
  have h3 : ((tallEnd.c.outs tallEnd.s.w.outH).map fun o => o.glyph.cell ⟨0, 0⟩) =
    some (.narrow ['x'] ()) := by decide +kernel
  have h4 : cellAt tallEnd.s.buf ⟨0, 0⟩ = some { Cell.default with text := ['a'] } := by decide +kernel
  have h5 : tallEnd.s.buf.size = ⟨2, 1⟩ := by decide +kernel
  generalize tallEnd = y at h2 h3 h4 h5
  rw [Option.map_eq_some_iff] at h3
  obtain ⟨o, h6, h7⟩ := h3
  refine ⟨y, o, showOpen_opened _, pathW_sound _ _ _ h2, h6, h7, h4, ?_⟩
  refine not_conShows (l := 0) (by rw [h5]; exact ⟨by decide, by decide⟩) h4 ?_
  intro h
  rw [h7] at h
  unfold glyphOf at h
  split at h
  · cases h
  · exact absurd h (by decide +kernel)

/-- A screen on which a letter has been drawn, but not refreshed. -/
def lostStart : WSess := (pathW demoEnv demoTerm [.draw (.writeAt ⟨1, 0⟩ ['a'])]
  (showOpen [⟨[], .fail⟩, ⟨[], .ok⟩])).getD (showOpen [])

/-- It after a refresh whose only call to the console failed. -/
def lostMid : WSess where
  s := match wsRefresh demoEnv demoTerm lostStart.s with
    | .err _ s => s
    | _ => lostStart.s
  c := lostStart.c

/-- It after another refresh. -/
def lostEnd : WSess := (pathW demoEnv demoTerm [.refresh] lostMid).getD (showOpen [])

/-- C47 is false after a refresh that failed: the cell it was about to draw is taken for drawn. The
next refresh returns `Ok`, and the letter is not shown, nor will it be by any later one. -/
theorem C47_failed_call_refuted : ∃ (x s1 y : WSess) (o : OutBuf),
    WOpened demoEnv demoTerm (winCfg .new false false) ⟨2, 3⟩ (showOpen [⟨[], .fail⟩, ⟨[], .ok⟩]) ∧
    WinStep.Path demoEnv demoTerm [.draw (.writeAt ⟨1, 0⟩ ['a'])]
      (showOpen [⟨[], .fail⟩, ⟨[], .ok⟩]) x ∧
    wsRefresh demoEnv demoTerm x.s = .err .os s1.s ∧
    s1.s.w.log = x.s.w.log ++ [.call (.setCursorPos 3 ⟨0, 1⟩) .fail] ∧
    x.c.Runs demoEnv 1 [.call (.setCursorPos 3 ⟨0, 1⟩) .fail] ∧
    x.c.play demoEnv 1 [.call (.setCursorPos 3 ⟨0, 1⟩) .fail] = some s1.c ∧
    WinStep.Path demoEnv demoTerm [.refresh] s1 y ∧
    y.c.outs y.s.w.outH = some o ∧ o.glyph.cell ⟨1, 0⟩ = .narrow [' '] () ∧
    cellAt y.s.buf ⟨1, 0⟩ = some { Cell.default with text := ['a'] } ∧
    y.s.buf.back = y.s.buf.buffer ∧ ¬ ConShows demoEnv demoTerm.defAttrs o y.s.buf := by
  have h1 : pathW demoEnv demoTerm [.draw (.writeAt ⟨1, 0⟩ ['a'])]
    (showOpen [⟨[], .fail⟩, ⟨[], .ok⟩]) = some lostStart := some_getD (showOpen []) (by decide +kernel)
  have h2 : pathW demoEnv demoTerm [.refresh] lostMid = some lostEnd :=
    some_getD (showOpen []) (by decide +kernel)
  have h3 : ((lostEnd.c.outs lostEnd.s.w.outH).map fun o => o.glyph.cell ⟨1, 0⟩) =
    some (.narrow [' '] ()) := by decide +kernel
  have h4 : cellAt lostEnd.s.buf ⟨1, 0⟩ = some { Cell.default with text := ['a'] } := by decide +kernel
  have h5 : lostEnd.s.buf.size = ⟨2, 3⟩ ∧ lostEnd.s.buf.back = lostEnd.s.buf.buffer := by decide +kernel
  have h6 : wsRefresh demoEnv demoTerm lostStart.s = .err .os lostMid.s ∧
    lostMid.s.w.log = lostStart.s.w.log ++ [.call (.setCursorPos 3 ⟨0, 1⟩) .fail] := by decide +kernel
  have h7 : lostMid.c = lostStart.c := rfl
  generalize lostEnd = y at h2 h3 h4 h5
  generalize lostMid = x1 at h2 h6 h7
  generalize lostStart = x at h1 h6 h7
  rw [Option.map_eq_some_iff] at h3
  obtain ⟨o, h8, h9⟩ := h3
  refine ⟨x, x1, y, o, showOpen_opened _, pathW_sound _ _ _ h1, h6.1, h6.2,
    ⟨Or.inl rfl, fun _ _ => trivial⟩, by rw [h7]; rfl, pathW_sound _ _ _ h2, h8, h9, h4, h5.2, ?_⟩
  refine not_conShows (l := 1) (by rw [h5.1]; exact ⟨by decide, by decide⟩) h4 ?_
  intro h
  rw [h9] at h
  unfold glyphOf at h
  split at h
  · cases h
  · exact absurd h (by decide +kernel)

end Mortal
