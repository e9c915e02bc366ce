import Verif.Lemmas.WinFail
import Verif.Props.WinShow

/-!
# C47: refreshes that fail on a Windows console

What failed refreshes leave behind when a later refresh succeeds.
-/

namespace Mortal
open Spec

/-- C47 for sessions in which refreshes fail, without two-column characters. Each failed refresh is
one whose calls that set attributes are not refused, whose text is taken whole or not at all, and that,
if a resize was pending, does not get beyond clearing the console. After a final refresh that returns
`Ok` at most as many cells are wrong as refreshes failed since the last resize; all others, the cursor
and the attributes for further text are as in `C47_narrow_partial`. Missing for the full claim: the
cells left out, which are indeed wrong, see `C47_failed_call_refuted`; other failures, after which more
cells may be wrong, see below. -/
theorem C47_repair_partial {u : UEnv} (hT : TableOk u) {t : WTerm} {cfg : PrepareConfig} {z : Size}
    (hz : ConSize z) {x y : WSess} (hx : WOpened u t cfg z x) (steps : List TryStep)
    (hs : ∀ st ∈ steps, st.Narrow u) (h : TryStep.Path u t (steps ++ [.did .refresh]) x y) :
    ∃ b, runOps u (steps.filterMap TryStep.asOp) (Buf.new z) = some b ∧
      ∃ o, y.c.outs y.s.w.outH = some o ∧ y.c.active = y.s.w.outH ∧
        ∃ bad : List Cursor, bad.length ≤ failedSince 0 steps ∧ ConShowsBut u t.defAttrs o b bad ∧
          o.glyph.cur = some (target b) ∧ o.word = t.defAttrs := by
  obtain ⟨b, h1, o, h2, h3, bad, h4, h5, h6, h7⟩ := wfail_end hT hz hx hs h
  exact ⟨b, h1, o, h2, h3, bad, h4, h5, h7, h6⟩

/-! ## Example -/

/-- Text; a refresh fails after one letter; more text; a refresh fails again. -/
def failOps : List TryStep :=
  [.did (.draw (.writeAt ⟨0, 0⟩ ['a', 'b', 'c'])), .failed, .did (.draw (.writeAt ⟨1, 0⟩ ['d'])),
   .failed]

/-- The answers to the calls of the three refreshes. -/
def failOs : List ConStep :=
  [⟨[], .wrote 1⟩, ⟨[], .fail⟩, ⟨[], .ok⟩, ⟨[], .wrote 1⟩, ⟨[], .fail⟩, ⟨[], .ok⟩]

/-- The screen after them. -/
def failEnd : WSess :=
  (tryW demoEnv demoTerm (failOps ++ [.did .refresh]) (showOpen failOs)).getD (showOpen [])

/-- Non-trivial case: the session meets the conditions and runs to its end; two refreshes failed, and
two cells are wrong. -/
example : WOpened demoEnv demoTerm (winCfg .new false false) ⟨2, 3⟩ (showOpen failOs) ∧
    (∀ st ∈ failOps, st.Narrow demoEnv) ∧ failedSince 0 failOps = 2 ∧
    TryStep.Path demoEnv demoTerm (failOps ++ [.did .refresh]) (showOpen failOs) failEnd ∧
    seen [⟨0, 0⟩, ⟨0, 1⟩, ⟨0, 2⟩, ⟨1, 0⟩] failEnd =
      some ([(.narrow ['a'] (), 7), (.narrow [' '] (), 7), (.narrow ['c'] (), 7),
        (.narrow [' '] (), 7)], some ⟨1, 1⟩) := by
  refine ⟨showOpen_opened _, ?_, rfl, tryW_sound _ _ _ (some_getD (showOpen []) (by decide +kernel)),
    by decide +kernel⟩
  intro st h
  simp only [failOps, List.mem_cons, List.not_mem_nil, or_false] at h
  rcases h with rfl | rfl | rfl | rfl
  · exact ⟨nofun, by decide, by unfold ThinMarks; decide⟩
  · trivial
  · exact ⟨nofun, by decide, by unfold ThinMarks; decide⟩
  · trivial

/-! ## Failures that do more harm -/

/-- Two wrong cells are more than one. -/
theorem not_conShowsBut {u : UEnv} {d : BitVec 16} {o : OutBuf} {b : Buf} {p q : Cursor} {c1 c2 : Cell}
    (hpq : p ≠ q) (hp : InBounds p b.size) (hq : InBounds q b.size) (h1 : cellAt b p = some c1)
    (h2 : cellAt b q = some c2) (g1 : o.glyph.cell p = glyphOf u c1 → ¬ Dressed d (o.attr p) c1)
    (g2 : o.glyph.cell q = glyphOf u c2 → ¬ Dressed d (o.attr q) c2) {bad : List Cursor}
    (hb : bad.length ≤ 1) : ¬ ConShowsBut u d o b bad := by
  intro h
  have e1 : p ∈ bad := by
    by_cases hm : p ∈ bad
    · exact hm
    · obtain ⟨k1, k2⟩ := h.2 p c1 hp hm h1
      exact absurd k2 (g1 k1)
  have e2 : q ∈ bad := by
    by_cases hm : q ∈ bad
    · exact hm
    · obtain ⟨k1, k2⟩ := h.2 q c2 hq hm h2
      exact absurd k2 (g2 k1)
  match bad, hb, e1, e2 with
  | [a], _, e1, e2 =>
    rw [List.mem_singleton] at e1 e2
    exact hpq (e1.trans e2.symm)

theorem glyphOf_ne {u : UEnv} {c : Cell} {x : List Char} (h : x ≠ c.text) :
    TCell.narrow x () ≠ glyphOf u c := by
  unfold glyphOf
  split
  · intro e; cases e
  · intro e
    injection e with e
    exact h e

/-- A red letter has been drawn, but not refreshed. -/
def dyedStart : WSess := (pathW demoEnv demoTerm
  [.draw (.writeStyledAt ⟨0, 0⟩ (some .red) none 0#8 ['a'])]
  (showOpen [⟨[], .ok⟩, ⟨[], .wrote 1⟩, ⟨[], .fail⟩, ⟨[], .ok⟩, ⟨[], .wrote 1⟩, ⟨[], .wrote 1⟩])).getD
  (showOpen [])

/-- The calls of the refresh. -/
def dyedLog : List WEv :=
  [.call (.setAttr 3 4) .ok, .call (.write 3 [97]) (.wrote 1), .call (.setAttr 3 7) .fail]

/-- It after a refresh in which the attributes could not be reset. -/
def dyedMid : WSess := ((failW demoEnv demoTerm dyedStart).map (·.2)).getD dyedStart

/-- It after two plain letters and another refresh. -/
def dyedEnd : WSess := (pathW demoEnv demoTerm
  [.draw (.writeAt ⟨1, 0⟩ ['b', 'c']), .refresh] dyedMid).getD dyedMid

/-- More than one cell may be wrong after one failed refresh: the console refuses the call that resets
the attributes at the end of a refresh, the terminal takes them for reset nonetheless. All that is
drawn by the next refresh, which returns `Ok`, has the attributes of the last cell drawn before. -/
theorem C47_failed_reset_refuted : ∃ (x0 x s1 y : WSess) (o : OutBuf),
    WOpened demoEnv demoTerm (winCfg .new false false) ⟨2, 3⟩ x0 ∧
    WinStep.Path demoEnv demoTerm [.draw (.writeStyledAt ⟨0, 0⟩ (some .red) none 0#8 ['a'])] x0 x ∧
    RefreshFails demoEnv demoTerm dyedLog x s1 ∧ s1.s.clear = x.s.clear ∧
    WinStep.Path demoEnv demoTerm [.draw (.writeAt ⟨1, 0⟩ ['b', 'c']), .refresh] s1 y ∧
    y.c.outs y.s.w.outH = some o ∧
    o.attr ⟨1, 0⟩ = 4 ∧ cellAt y.s.buf ⟨1, 0⟩ = some { Cell.default with text := ['b'] } ∧
    o.attr ⟨1, 1⟩ = 4 ∧ cellAt y.s.buf ⟨1, 1⟩ = some { Cell.default with text := ['c'] } ∧
    ∀ bad : List Cursor, bad.length ≤ 1 → ¬ ConShowsBut demoEnv demoTerm.defAttrs o y.s.buf bad := by
  have h1 := pathW_sound _ _ _ (some_getD (showOpen []) (show (pathW demoEnv demoTerm
    [.draw (.writeStyledAt ⟨0, 0⟩ (some .red) none 0#8 ['a'])]
    (showOpen [⟨[], .ok⟩, ⟨[], .wrote 1⟩, ⟨[], .fail⟩, ⟨[], .ok⟩, ⟨[], .wrote 1⟩, ⟨[], .wrote 1⟩])).isSome
      = true by decide +kernel))
  change WinStep.Path _ _ _ _ dyedStart at h1
  have h2 : failW demoEnv demoTerm dyedStart = some (dyedLog, dyedMid) := by
    have e1 : (failW demoEnv demoTerm dyedStart).map (·.1) = some dyedLog := by decide +kernel
    unfold dyedMid
    rw [Option.map_eq_some_iff] at e1
    obtain ⟨⟨D, s⟩, e2, e3⟩ := e1
    rw [e2]
    cases e3
    rfl
  have h3 : pathW demoEnv demoTerm [.draw (.writeAt ⟨1, 0⟩ ['b', 'c']), .refresh] dyedMid = some dyedEnd :=
    some_getD dyedMid (by decide +kernel)
  have h4 : ((dyedEnd.c.outs dyedEnd.s.w.outH).map fun o => (o.attr ⟨1, 0⟩, o.attr ⟨1, 1⟩)) =
    some (4, 4) := by decide +kernel
  have h5 : dyedEnd.s.buf.size = ⟨2, 3⟩ ∧
    cellAt dyedEnd.s.buf ⟨1, 0⟩ = some { Cell.default with text := ['b'] } ∧
    cellAt dyedEnd.s.buf ⟨1, 1⟩ = some { Cell.default with text := ['c'] } := by decide +kernel
  have h6 : dyedMid.s.clear = dyedStart.s.clear := by decide +kernel
  generalize dyedEnd = y at h3 h4 h5
  generalize dyedMid = s1 at h2 h3 h6
  generalize dyedStart = x at h1 h2 h6
  rw [Option.map_eq_some_iff] at h4
  obtain ⟨o, h7, h8⟩ := h4
  rw [Prod.mk.injEq] at h8
  refine ⟨_, x, s1, y, o, showOpen_opened _, h1, failW_sound h2, h6, pathW_sound _ _ _ h3, h7, h8.1,
    h5.2.1, h8.2, h5.2.2, fun bad hb => ?_⟩
  refine not_conShowsBut (p := ⟨1, 0⟩) (q := ⟨1, 1⟩) (by decide) (by rw [h5.1]; exact ⟨by decide, by decide⟩)
    (by rw [h5.1]; exact ⟨by decide, by decide⟩) h5.2.1 h5.2.2 (fun _ h => ?_) (fun _ h => ?_) hb
  · unfold Dressed at h
    rw [h8.1] at h
    exact absurd h (by decide +kernel)
  · unfold Dressed at h
    rw [h8.2] at h
    exact absurd h (by decide +kernel)

/-- A letter with a combining mark has been drawn, but not refreshed. -/
def cutStart : WSess := (pathW demoEnv demoTerm [.draw (.writeAt ⟨0, 0⟩ ['a', '\u0301'])]
  (showOpen [⟨[], .wrote 1⟩, ⟨[], .fail⟩, ⟨[], .wrote 1⟩])).getD (showOpen [])

/-- The calls of the refresh. -/
def cutLog : List WEv := [.call (.write 3 [97, 769]) (.wrote 1), .call (.write 3 [769]) .fail]

/-- It after a refresh in which only a part of the text was taken. -/
def cutMid : WSess := ((failW demoEnv demoTerm cutStart).map (·.2)).getD cutStart

/-- It after another letter in the same place, and another refresh. -/
def cutEnd : WSess := (pathW demoEnv demoTerm
  [.draw (.writeAt ⟨0, 0⟩ ['x']), .refresh] cutMid).getD cutMid

/-- More than one cell may be wrong after one failed refresh: the console takes a part of a cell's text
and moves its cursor, then refuses the rest. The screen takes the cursor for being where it was; the
next refresh, which returns `Ok`, draws in the wrong place, and leaves the cursor in the wrong place. -/
theorem C47_failed_rest_refuted : ∃ (x0 x s1 y : WSess) (o : OutBuf),
    WOpened demoEnv demoTerm (winCfg .new false false) ⟨2, 3⟩ x0 ∧
    WinStep.Path demoEnv demoTerm [.draw (.writeAt ⟨0, 0⟩ ['a', '\u0301'])] x0 x ∧
    RefreshFails demoEnv demoTerm cutLog x s1 ∧ s1.s.clear = x.s.clear ∧
    WinStep.Path demoEnv demoTerm [.draw (.writeAt ⟨0, 0⟩ ['x']), .refresh] s1 y ∧
    y.c.outs y.s.w.outH = some o ∧
    o.glyph.cell ⟨0, 0⟩ = .narrow ['a'] () ∧
    cellAt y.s.buf ⟨0, 0⟩ = some { Cell.default with text := ['x'] } ∧
    o.glyph.cell ⟨0, 1⟩ = .narrow ['x'] () ∧ cellAt y.s.buf ⟨0, 1⟩ = some Cell.default ∧
    o.glyph.cur ≠ some (target y.s.buf) ∧
    ∀ bad : List Cursor, bad.length ≤ 1 → ¬ ConShowsBut demoEnv demoTerm.defAttrs o y.s.buf bad := by
  have h1 := pathW_sound _ _ _ (some_getD (showOpen []) (show (pathW demoEnv demoTerm
    [.draw (.writeAt ⟨0, 0⟩ ['a', '\u0301'])]
    (showOpen [⟨[], .wrote 1⟩, ⟨[], .fail⟩, ⟨[], .wrote 1⟩])).isSome = true by decide +kernel))
  change WinStep.Path _ _ _ _ cutStart at h1
  have h2 : failW demoEnv demoTerm cutStart = some (cutLog, cutMid) := by
    have e1 : (failW demoEnv demoTerm cutStart).map (·.1) = some cutLog := by decide +kernel
    unfold cutMid
    rw [Option.map_eq_some_iff] at e1
    obtain ⟨⟨D, s⟩, e2, e3⟩ := e1
    rw [e2]
    cases e3
    rfl
  have h3 : pathW demoEnv demoTerm [.draw (.writeAt ⟨0, 0⟩ ['x']), .refresh] cutMid = some cutEnd :=
    some_getD cutMid (by decide +kernel)
  have h4 : ((cutEnd.c.outs cutEnd.s.w.outH).map fun o => (o.glyph.cell ⟨0, 0⟩, o.glyph.cell ⟨0, 1⟩,
      o.glyph.cur)) = some (.narrow ['a'] (), .narrow ['x'] (), some ⟨0, 2⟩) := by decide +kernel
  have h5 : cutEnd.s.buf.size = ⟨2, 3⟩ ∧
    cellAt cutEnd.s.buf ⟨0, 0⟩ = some { Cell.default with text := ['x'] } ∧
    cellAt cutEnd.s.buf ⟨0, 1⟩ = some Cell.default ∧ target cutEnd.s.buf = ⟨0, 1⟩ := by decide +kernel
  have h6 : cutMid.s.clear = cutStart.s.clear := by decide +kernel
  generalize cutEnd = y at h3 h4 h5
  generalize cutMid = s1 at h2 h3 h6
  generalize cutStart = x at h1 h2 h6
  rw [Option.map_eq_some_iff] at h4
  obtain ⟨o, h7, h8⟩ := h4
  rw [Prod.mk.injEq, Prod.mk.injEq] at h8
  refine ⟨_, x, s1, y, o, showOpen_opened _, h1, failW_sound h2, h6, pathW_sound _ _ _ h3, h7, h8.1,
    h5.2.1, h8.2.1, h5.2.2.1, ?_, fun bad hb => ?_⟩
  · rw [h8.2.2, h5.2.2.2]; decide
  refine not_conShowsBut (p := ⟨0, 0⟩) (q := ⟨0, 1⟩) (by decide) (by rw [h5.1]; exact ⟨by decide, by decide⟩)
    (by rw [h5.1]; exact ⟨by decide, by decide⟩) h5.2.1 h5.2.2.1 (fun h => ?_) (fun h => ?_) hb
  · rw [h8.1] at h
    exact absurd h (glyphOf_ne (by decide))
  · rw [h8.2.1] at h
    exact absurd h (glyphOf_ne (by decide))

/-- A line of text is shown, with the cursor at its second letter; the console becomes smaller. -/
def slipOps : List WinStep :=
  [.draw (.writeAt ⟨0, 0⟩ ['a', 'b', 'c']), .draw (.setCursor ⟨0, 1⟩), .refresh,
   .resized ⟨1, 3⟩ { demoOut with
      glyph := { demoOut.glyph with size := ⟨1, 3⟩, cell := fun _ => .torn }, window := ⟨0, 0, 2, 0⟩ }]

/-- The answers to the calls of the refreshes. -/
def slipOs : List ConStep :=
  [⟨[], .wrote 1⟩, ⟨[], .wrote 1⟩, ⟨[], .wrote 1⟩, ⟨[], .ok⟩,
   ⟨[], .info ⟨⟨3, 1⟩, ⟨0, 0⟩, 7, ⟨0, 0, 2, 0⟩⟩⟩, ⟨[], .ok⟩, ⟨[], .ok⟩, ⟨[], .ok⟩, ⟨[], .fail⟩,
   ⟨[], .wrote 1⟩, ⟨[], .wrote 1⟩, ⟨[], .ok⟩]

/-- The screen then. -/
def slipStart : WSess := (pathW demoEnv demoTerm slipOps (showOpen slipOs)).getD (showOpen [])

/-- The calls of the refresh. -/
def slipLog : List WEv := ((failW demoEnv demoTerm slipStart).map (·.1)).getD []

/-- It after a refresh that failed at the first cursor movement after clearing the console. -/
def slipMid : WSess := ((failW demoEnv demoTerm slipStart).map (·.2)).getD slipStart

/-- It after another refresh. -/
def slipEnd : WSess := (pathW demoEnv demoTerm [.refresh] slipMid).getD slipMid

/-- More than one cell may be wrong after one failed refresh: a refresh clears the console, which moves
the console's cursor to the top, and fails at the next call. The screen takes the cursor for being
where it was before; the next refresh, which returns `Ok`, shows the whole first line one column too
far to the left. No attributes were refused and no text was cut. -/
theorem C47_failed_after_clear_refuted : ∃ (x0 x s1 y : WSess) (o : OutBuf) (D : List WEv),
    WOpened demoEnv demoTerm (winCfg .new false false) ⟨2, 3⟩ x0 ∧
    WinStep.Path demoEnv demoTerm slipOps x0 x ∧ (∀ st ∈ slipOps, WNarrow demoEnv st) ∧
    RefreshFails demoEnv demoTerm D x s1 ∧ (∀ ev ∈ D, MildCall ev) ∧
    WinStep.Path demoEnv demoTerm [.refresh] s1 y ∧ y.c.outs y.s.w.outH = some o ∧
    o.glyph.cell ⟨0, 0⟩ = .narrow ['b'] () ∧
    cellAt y.s.buf ⟨0, 0⟩ = some { Cell.default with text := ['a'] } ∧
    o.glyph.cell ⟨0, 1⟩ = .narrow ['c'] () ∧
    cellAt y.s.buf ⟨0, 1⟩ = some { Cell.default with text := ['b'] } ∧
    ∀ bad : List Cursor, bad.length ≤ 1 → ¬ ConShowsBut demoEnv demoTerm.defAttrs o y.s.buf bad := by
  have h1 := pathW_sound _ _ _ (some_getD (showOpen []) (show (pathW demoEnv demoTerm
    slipOps (showOpen slipOs)).isSome = true by decide +kernel))
  change WinStep.Path _ _ _ _ slipStart at h1
  have h2 : failW demoEnv demoTerm slipStart = some (slipLog, slipMid) := by
    have e1 : (failW demoEnv demoTerm slipStart).isSome = true := by decide +kernel
    unfold slipMid slipLog
    obtain ⟨⟨D, s⟩, e2⟩ := Option.isSome_iff_exists.mp e1
    rw [e2]
    rfl
  have h3 : pathW demoEnv demoTerm [.refresh] slipMid = some slipEnd :=
    some_getD slipMid (by decide +kernel)
  have h4 : ((slipEnd.c.outs slipEnd.s.w.outH).map fun o => (o.glyph.cell ⟨0, 0⟩, o.glyph.cell ⟨0, 1⟩)) =
    some (.narrow ['b'] (), .narrow ['c'] ()) := by decide +kernel
  have h5 : slipEnd.s.buf.size = ⟨1, 3⟩ ∧
    cellAt slipEnd.s.buf ⟨0, 0⟩ = some { Cell.default with text := ['a'] } ∧
    cellAt slipEnd.s.buf ⟨0, 1⟩ = some { Cell.default with text := ['b'] } := by decide +kernel
  have h6 : slipLog.all mildB = true := by decide +kernel
  generalize slipEnd = y at h3 h4 h5
  generalize slipMid = s1 at h2 h3
  generalize slipLog = D at h2 h6
  generalize slipStart = x at h1 h2
  rw [Option.map_eq_some_iff] at h4
  obtain ⟨o, h7, h8⟩ := h4
  rw [Prod.mk.injEq] at h8
  refine ⟨_, x, s1, y, o, D, showOpen_opened _, h1, ?_, failW_sound h2,
    fun ev hev => mildB_sound (List.all_eq_true.mp h6 ev hev), pathW_sound _ _ _ h3, h7, h8.1, h5.2.1,
    h8.2, h5.2.2, fun bad hb => ?_⟩
  · intro st h
    simp only [slipOps, List.mem_cons, List.not_mem_nil, or_false] at h
    rcases h with rfl | rfl | rfl | rfl
    · exact ⟨nofun, by decide, by unfold ThinMarks; decide⟩
    · exact ⟨nofun, by decide, by unfold ThinMarks; decide⟩
    · trivial
    · exact ⟨by unfold ConSize GoodSize; decide, by unfold Term.Paired; simp, rfl, rfl, rfl⟩
  refine not_conShowsBut (p := ⟨0, 0⟩) (q := ⟨0, 1⟩) (by decide) (by rw [h5.1]; exact ⟨by decide, by decide⟩)
    (by rw [h5.1]; exact ⟨by decide, by decide⟩) h5.2.1 h5.2.2 (fun h => ?_) (fun h => ?_) hb
  · rw [h8.1] at h
    exact absurd h (glyphOf_ne (by decide))
  · rw [h8.2] at h
    exact absurd h (glyphOf_ne (by decide))

end Mortal
