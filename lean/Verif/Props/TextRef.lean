import Verif.Lemmas.TextRef
import Verif.Props.Live

/-!
# What a screen holds is what its drawing calls describe (C62)

The reference (`Spec/TextRef.lean`) says position by position what each drawing call should make of a
picture, for any text.
-/

namespace Mortal
open Spec

/-- **C62.** After any history of drawing calls on a new screen, with any texts, the screen holds exactly
the picture the calls describe: every cell, the cursor, the attributes in force; and a call panics exactly
when the reference has no result, because the cursor's line would not be a `usize`. Partial: in the
history no two-column character meets the end of a line, no combining mark follows a two-column
character, and no text with attributes is cut off; there the claim is false, see `C62_exactly_when` and
`C62_cut_off`. -/
theorem C62_page_partial (env : UEnv) (henv : SpaceOk env) (z : Size) (hz : GoodSize z)
    (ops : List BufOp) (ht : (Pic.fresh z).TameRun env ops) :
    (runOps env ops (Buf.new z)).map picOf = Pic.drawAll env ops (Pic.fresh z) := by
  rw [← picOf_new] at ht ⊢
  exact (ops_ref henv ops (new_inv hz) ht).1

/-- **C62**, from any screen, one call. -/
theorem C62_call_partial (env : UEnv) (henv : SpaceOk env) (b : Buf) (h : GridOk b) (op : BufOp)
    (ht : (picOf b).TameOp env op) :
    (op.run env b).map picOf = (picOf b).draw env op ∧ ∀ b', op.run env b = some b' → GridOk b' :=
  op_ref henv h op ht

/-- **C62**: a write reports success exactly when the text has room. -/
theorem C62_result_partial (env : UEnv) (henv : SpaceOk env) (b : Buf) (h : GridOk b) (s : List Char)
    (ht : (picOf b).Tame env s) :
    (b.writeStr env s).map (fun x => (picOf x.1, decide (x.2 = .ok))) = (picOf b).text env s :=
  (text_ref henv s h ht).1

/-- **C62**: the exclusions are the exact extent of the flaws. One character (not wider than the screen)
does what it should if and only if it is not a combining mark after a two-column character, nor a
two-column character before the end of a line. -/
theorem C62_exactly_when (env : UEnv) (henv : SpaceOk env) (b : Buf) (h : GridOk b) (ch : Char)
    (hw : env.w ch ≤ b.size.columns) :
    (b.writeChar env ch).map (fun x => (picOf x.1, decide (x.2 = .ok))) = (picOf b).char env ch ↔
      (picOf b).Fits env ch := by
  constructor
  · intro e
    constructor
    · intro hm
      exact Classical.byContradiction fun hne => mark_differs h hm hne e
    · intro hp hc
      exact Classical.byContradiction fun hfit => wrap_differs henv h hp hc hfit hw e
  · exact char_ref henv h ch

/-- **C62**: without two-column characters only a text with attributes that is cut off has to be left
out. -/
theorem C62_narrow_partial (env : UEnv) (hT : TableOk env) (z : Size) (hz : GoodSize z)
    (ops : List BufOp) (hw : ∀ op ∈ ops, ∀ ch ∈ opText op, env.w ch ≠ 2)
    (hr : (Pic.fresh z).RoomRun env ops) :
    (runOps env ops (Buf.new z)).map picOf = Pic.drawAll env ops (Pic.fresh z) :=
  C62_page_partial env hT.space z hz ops (thin_run hT.space hT.le2 ops (thin_fresh hT.space z) hw hr).1

/-- **C62**: on a screen of a terminal that is in use, this is also what is seen. A session as in C59;
its drawing calls, taken together, describe a picture `p`. When a refresh or a guard ends and the last
change of size has been reported, the terminal shows `p`: every cell with its text and attributes, the
cursor where `p` has it (in the last cell, if that is outside). -/
theorem C62_seen {u : UEnv} (hT : TableOk u) {env : REnv} (hg : GoodDB env.w)
    (hdb : DrawDB env.w) {cfg : PrepareConfig} {s0 s1 : US} {scr : ScreenU} {t0 t1 : Term}
    (hu : UsedBefore env.w s0 t0) (hw : GoodWindow s0)
    (hnew : screenNew env cfg s0 = .ok scr s1) (hl : Looks u t0 s0 s1 t1)
    {es : List LiveEv} {op : ScrOp} {r : URet} {kept : Bool} {y : Spec.Live}
    (hrun : LiveRun u env ⟨scr.data, s1, t1⟩ (es ++ [.call op r kept]) y)
    (hn : ∀ op' r' k', LiveEv.call op' r' k' ∈ es ++ [LiveEv.call op r kept] → NarrowCall u op')
    (hop : op = .refresh ∨ ∃ gs, op = .guard gs)
    (hup : upToDate (decide (SizeKept s0 s1)) es = true)
    (hr : (Pic.fresh scr.data.buf.size).RoomRun u ((es ++ [LiveEv.call op r kept]).flatMap LiveEv.asked)) :
    ∃ p, Pic.drawAll u ((es ++ [LiveEv.call op r kept]).flatMap LiveEv.asked)
        (Pic.fresh scr.data.buf.size) = some p ∧
      y.t.size = p.size ∧
      (∀ c x, p.cell c = some x → y.t.cell c = .narrow x.text (view ⟨x.fg, x.bg, x.style⟩)) ∧
      (∀ c, InBounds c p.size → ∃ x, p.cell c = some x) ∧
      y.t.cur = some (if InBounds p.cursor p.size then p.cursor
        else ⟨p.size.lines - 1, p.size.columns - 1⟩) := by
  obtain ⟨b, h1, h2, h3, -⟩ := C59_live_screen hT hg hdb hu hw hnew hl hrun hn hop hup
  have hz : GoodSize scr.data.buf.size := by
    obtain ⟨tf, n1, -⟩ := (live_open hT hg hdb hu hw hnew hl false).view
    exact n1.held.grid.size
  have hnar : ∀ o ∈ (es ++ [LiveEv.call op r kept]).flatMap LiveEv.asked, ∀ ch ∈ opText o, u.w ch ≠ 2 := by
    intro o ho ch hch
    obtain ⟨e, he, hoe⟩ := List.mem_flatMap.mp ho
    unfold LiveEv.asked at hoe
    split at hoe
    · cases hoe with
      | head => exact (hn _ _ _ he).2.1 ch hch
      | tail _ h => cases h
    · obtain ⟨g, hg1, hg2⟩ := List.mem_filterMap.mp hoe
      unfold GOp.asked at hg2
      split at hg2
      · cases hg2; exact (hn _ _ _ he _ hg1).2.1 ch hch
      all_goals cases hg2
    · cases hoe with
      | head => cases hch
      | tail _ h => cases h
    · cases hoe
  have htame := thin_run hT.space hT.le2 _ (thin_fresh hT.space scr.data.buf.size) hnar hr
  have hp := C62_narrow_partial u hT _ hz _ hnar hr
  rw [h1] at hp
  have hthin := htame.2 _ hp.symm
  have hgrid : GridOk b := by
    have := htame.1
    rw [← picOf_new] at this
    exact (ops_ref hT.space _ (new_inv hz) this).2 b h1
  have hin : ∀ c x, (picOf b).cell c = some x → InBounds c b.size := by
    intro c x hx
    apply Classical.byContradiction
    intro hc
    rw [picOf_out hc] at hx; cases hx
  refine ⟨picOf b, hp.symm, h2.1, ?_, ?_, h3⟩
  · intro c x hx
    have hc := hin c x hx
    rw [picOf_cell hc] at hx
    rw [h2.2 c x hc hx, if_neg, picture, if_neg]
    · intro hwd
      have := hthin c
      rw [wideAt_in hc hx, isWide_iff.mpr hwd] at this
      cases this
    · rintro ⟨h4, x', h5, h6⟩
      have hc' : InBounds (⟨c.line, c.column - 1⟩ : Cursor) b.size :=
        ⟨hc.1, by have := hc.2; dsimp only; omega⟩
      have := hthin ⟨c.line, c.column - 1⟩
      rw [wideAt_in hc' h5, isWide_iff.mpr h6] at this
      cases this
  · intro c hc
    rw [picOf_cell hc]
    have hlt : numOf b.size c < b.buffer.length := by rw [hgrid.len]; exact numOf_lt hc
    exact ⟨_, List.getElem?_eq_getElem hlt⟩

/-- **C62** with two-column characters: a session as in `C59_live_wide` whose drawing calls are tame is
seen as the picture `p`; the position to the right of a two-column character shows its right half. The
cursor is where `p` has it, if that is not such a position. -/
theorem C62_seen_wide {u : UEnv} (hT : TableOk u) {env : REnv} (hg : GoodDB env.w)
    (hdb : DrawDB env.w) {cfg : PrepareConfig} {s0 s1 : US} {scr : ScreenU} {t0 t1 : Term}
    (hu : UsedBefore env.w s0 t0) (hw : GoodWindow s0)
    (hnew : screenNew env cfg s0 = .ok scr s1) (hl : Looks u t0 s0 s1 t1)
    {es : List LiveEv} {op : ScrOp} {r : URet} {kept : Bool} {y : Spec.Live}
    (hrun : LiveRun u env ⟨scr.data, s1, t1⟩ (es ++ [.call op r kept]) y)
    (hn : WideHist u env scr.data s1 (es ++ [LiveEv.call op r kept]))
    (hop : op = .refresh ∨ ∃ gs, op = .guard gs)
    (hup : upToDate (decide (SizeKept s0 s1)) es = true)
    (hr : (Pic.fresh scr.data.buf.size).TameRun u ((es ++ [LiveEv.call op r kept]).flatMap LiveEv.asked)) :
    ∃ p, Pic.drawAll u ((es ++ [LiveEv.call op r kept]).flatMap LiveEv.asked)
        (Pic.fresh scr.data.buf.size) = some p ∧
      y.t.size = p.size ∧
      (∀ c x, p.cell c = some x → y.t.cell c =
        if 0 < c.column ∧ p.wideAt u ⟨c.line, c.column - 1⟩ then .right
        else if p.wideAt u c then .left x.text (view ⟨x.fg, x.bg, x.style⟩)
        else .narrow x.text (view ⟨x.fg, x.bg, x.style⟩)) ∧
      (∀ c, InBounds c p.size → ∃ x, p.cell c = some x) ∧
      ∀ c, c = (if InBounds p.cursor p.size then p.cursor
        else ⟨p.size.lines - 1, p.size.columns - 1⟩) →
        ¬ (0 < c.column ∧ p.wideAt u ⟨c.line, c.column - 1⟩) → y.t.cur = some c := by
  obtain ⟨b, h1, h2, h3, -⟩ := C59_live_wide hT hg hdb hu hw hnew hl hrun hn hop hup
  have hz : GoodSize scr.data.buf.size := by
    obtain ⟨tf, n1, -⟩ := (live_open hT hg hdb hu hw hnew hl false).view
    exact n1.held.grid.size
  have hp := C62_page_partial u hT.space _ hz _ hr
  rw [h1] at hp
  have hgrid : GridOk b := by
    have := hr
    rw [← picOf_new] at this
    exact (ops_ref hT.space _ (new_inv hz) this).2 b h1
  have hin : ∀ c x, (picOf b).cell c = some x → InBounds c b.size := by
    intro c x hx
    apply Classical.byContradiction
    intro hc
    rw [picOf_out hc] at hx; cases hx
  have hcell : ∀ c, InBounds c b.size → ∃ x, cellAt b c = some x := by
    intro c hc
    have hlt : numOf b.size c < b.buffer.length := by rw [hgrid.len]; exact numOf_lt hc
    exact ⟨_, List.getElem?_eq_getElem hlt⟩
  have hright : ∀ c, InBounds c b.size →
      ((0 < c.column ∧ (picOf b).wideAt u ⟨c.line, c.column - 1⟩ = true) ↔ RightHalf u b c) := by
    intro c hc
    have hc' : InBounds (⟨c.line, c.column - 1⟩ : Cursor) b.size :=
      ⟨hc.1, by have := hc.2; dsimp only; omega⟩
    obtain ⟨x, hx⟩ := hcell _ hc'
    rw [wideAt_in hc' hx]
    constructor
    · rintro ⟨h4, h5⟩
      exact ⟨h4, x, hx, isWide_iff.mp h5⟩
    · rintro ⟨h4, x', h5, h6⟩
      rw [hx] at h5
      cases h5
      exact ⟨h4, isWide_iff.mpr h6⟩
  refine ⟨picOf b, hp.symm, h2.1, ?_, ?_, ?_⟩
  · intro c x hx
    have hc := hin c x hx
    rw [picOf_cell hc] at hx
    rw [h2.2 c x hc hx, wideAt_in hc hx]
    simp only [hright c hc]
    by_cases h4 : RightHalf u b c
    · rw [if_pos h4, if_pos h4]
    · rw [if_neg h4, if_neg h4]
      unfold picture
      by_cases h5 : HoldsWide u x
      · rw [if_pos h5, if_pos (isWide_iff.mpr h5)]
      · rw [if_neg h5, if_neg (fun h => h5 (isWide_iff.mp h))]
  · intro c hc
    rw [picOf_cell hc]
    exact hcell c hc
  · rintro c rfl hnr
    refine h3 fun h4 => hnr ?_
    exact (hright _ (target_in hgrid.size)).mpr h4

/-- **C62** is false for a text with attributes that is cut off: the attributes stay in force. -/
theorem C62_cut_off : ∃ (ops : List BufOp) (b : Buf) (p : Pic),
    ops = [.writeStyled (some .red) none 0#8 ['a', 'b', 'c']] ∧
    runOps demoEnv ops (Buf.new ⟨1, 2⟩) = some b ∧ Pic.drawAll demoEnv ops (Pic.fresh ⟨1, 2⟩) = some p ∧
    b.fg = some .red ∧ p.fg = none := by
  have h1 : (runOps demoEnv [.writeStyled (some .red) none 0#8 ['a', 'b', 'c']] (Buf.new ⟨1, 2⟩)).map
      (fun b => b.fg) = some (some .red) := by decide +kernel
  have h2 : (Pic.drawAll demoEnv [.writeStyled (some .red) none 0#8 ['a', 'b', 'c']]
      (Pic.fresh ⟨1, 2⟩)).map (fun p => p.fg) = some none := by decide +kernel
  obtain ⟨b, e1, e2⟩ := Option.map_eq_some_iff.mp h1
  obtain ⟨p, e3, e4⟩ := Option.map_eq_some_iff.mp h2
  exact ⟨_, b, p, rfl, e1, e3, e2, e4⟩

/-! ## The hypotheses can be met -/

/-- Whether a character fits, computed. -/
def fitsB (env : UEnv) (p : Pic) (ch : Char) : Bool :=
  let ctl := ch = '\r' ∨ ch = '\n' ∨ ch = '\t'
  (decide ctl || !env.combining ch || decide (p.markAt env = posBefore p.size p.cursor)) &&
  (decide ctl || env.combining ch || decide (env.w ch = 0) || !decide (InBounds p.cursor p.size) ||
    decide (p.cursor.column + env.w ch ≤ p.size.columns))

theorem fits_of_B {env : UEnv} {p : Pic} {ch : Char} (h : fitsB env p ch = true) : p.Fits env ch := by
  unfold fitsB at h
  simp only [Bool.and_eq_true, Bool.or_eq_true, decide_eq_true_eq, Bool.not_eq_true', decide_eq_false_iff_not] at h
  obtain ⟨h1, h2⟩ := h
  constructor
  · intro hm
    have hc := hm.ctl
    simp only [List.mem_cons, List.not_mem_nil, or_false] at hc
    rcases h1 with (h1 | h1) | h1
    · exact absurd h1 hc
    · rw [hm.comb] at h1; cases h1
    · exact h1
  · intro hp hin
    rcases h2 with (((h2 | h2) | h2) | h2) | h2
    · rcases h2 with h2 | h2 | h2
      · exact absurd h2 hp.cr
      · exact absurd h2 hp.lf
      · exact absurd h2 hp.tab
    · rw [hp.comb] at h2; cases h2
    · exact absurd h2 hp.width
    · exact absurd hin h2
    · exact h2

/-- Whether a text is tame, computed. -/
def tameB (env : UEnv) : Pic → List Char → Bool
  | _, [] => true
  | p, ch :: s => fitsB env p ch && match p.char env ch with
    | some (p', true) => tameB env p' s
    | _ => true

theorem tame_of_B {env : UEnv} (s : List Char) {p : Pic} (h : tameB env p s = true) : p.Tame env s := by
  induction s generalizing p with
  | nil => trivial
  | cons ch s ih =>
    rw [tameB, Bool.and_eq_true] at h
    refine ⟨fits_of_B h.1, fun p' e => ih ?_⟩
    have h2 := h.2
    rw [e] at h2
    exact h2

/-- Whether a call is tame, computed (for the calls of the examples). -/
def tameOpB (env : UEnv) (p : Pic) : BufOp → Bool
  | .writeStr s => tameB env p s
  | .writeAt pos s => tameB env { p with cursor := pos } s
  | .resize s => decide (GoodSize s)
  | _ => false

/-- Whether a history is tame, computed. -/
def tameRunB (env : UEnv) : Pic → List BufOp → Bool
  | _, [] => true
  | p, op :: ops => tameOpB env p op && match p.draw env op with
    | some p' => tameRunB env p' ops
    | none => true

theorem tameRun_of_B {env : UEnv} (ops : List BufOp) {p : Pic} (h : tameRunB env p ops = true) :
    p.TameRun env ops := by
  induction ops generalizing p with
  | nil => trivial
  | cons op ops ih =>
    rw [tameRunB, Bool.and_eq_true] at h
    refine ⟨?_, fun p' e => ih ?_⟩
    · have h1 := h.1
      cases op with
      | writeStr s => exact tame_of_B s h1
      | writeAt pos s => exact fun _ => tame_of_B s h1
      | resize s => exact (of_decide_eq_true h1 : GoodSize s)
      | _ => cases h1
    · have h2 := h.2
      rw [e] at h2
      exact h2

/-- Text with a two-column character, a combining mark, a tab and line ends; the right half of the
two-column character is overwritten later. -/
def refText : List Char := ['a', '\u0301', '\t', '世', '\n', '世', 'b']

/-- `C62_page_partial`, `C62_call_partial`, `C62_result_partial`. -/
example : GoodSize ⟨3, 12⟩ ∧
    (Pic.fresh ⟨3, 12⟩).TameRun demoEnv [.writeStr refText, .writeAt ⟨0, 9⟩ ['x']] ∧
    ((Pic.drawAll demoEnv [.writeStr refText, .writeAt ⟨0, 9⟩ ['x']] (Pic.fresh ⟨3, 12⟩)).map fun p =>
      (p.cursor, [⟨0, 0⟩, ⟨0, 8⟩, ⟨0, 9⟩, ⟨1, 0⟩, ⟨1, 2⟩].map fun c => (p.cell c).map (·.text))) =
      some (⟨0, 10⟩, [some ['a', '\u0301'], some [' '], some ['x'], some ['世'], some ['b']]) := by
  refine ⟨by unfold GoodSize; decide, ⟨tame_of_B _ (by decide +kernel), fun p' e => ⟨fun _ => ?_, fun _ _ => trivial⟩⟩,
    by decide +kernel⟩
  refine ⟨⟨fun hm => absurd hm.comb (by decide), fun _ hin => ?_⟩, fun _ _ => trivial⟩
  have hw : demoEnv.w 'x' = 1 := by decide
  rw [hw]
  exact hin.2

/-- Both kinds of characters for `C62_exactly_when`. -/
example : demoEnv.w '世' ≤ 3 ∧ (picOf (Buf.new ⟨2, 3⟩)).Fits demoEnv '世' ∧
    ¬ (picOf ((Buf.new ⟨2, 3⟩).setCursor ⟨0, 2⟩)).Fits demoEnv '世' := by
  refine ⟨by decide, fits_of_B (by decide +kernel), fun h => ?_⟩
  have := h.2 ⟨by decide, by decide, by decide, by decide, by decide⟩ (by unfold InBounds; decide)
  revert this
  decide

/-- `C62_narrow_partial`. -/
example : (∀ op ∈ [BufOp.writeStyled (some .red) none 0#8 ['a', '\n', 'b'], .writeStr ['c', '\t', 'd']],
      ∀ ch ∈ opText op, demoEnv.w ch ≠ 2) ∧
    (Pic.fresh ⟨2, 9⟩).RoomRun demoEnv
      [.writeStyled (some .red) none 0#8 ['a', '\n', 'b'], .writeStr ['c', '\t', 'd']] := by
  refine ⟨by decide, fun p' r e => ?_, fun _ _ => ⟨trivial, fun _ _ => trivial⟩⟩
  have h : (((Pic.fresh ⟨2, 9⟩).inked (some .red) none 0#8).text demoEnv ['a', '\n', 'b']).map (·.2) =
      some true := by decide +kernel
  rw [e] at h
  exact Option.some.inj h

/-- `C62_seen`: the calls of the session shown beside `C59_live_screen` have room. -/
example (z : Size) : (Pic.fresh z).RoomRun demoEnv
    [.writeAt ⟨0, 1⟩ ['a', 'b'], .resize ⟨2, 2⟩, .writeAt ⟨1, 0⟩ ['c']] :=
  ⟨trivial, fun _ _ => ⟨by show GoodSize _; unfold GoodSize; decide, fun _ _ => ⟨trivial, fun _ _ => trivial⟩⟩⟩

/-- `C62_seen_wide`: the calls of the session with two-column characters shown beside `C59_live_wide` are
tame. -/
example : (Pic.fresh ⟨2, 3⟩).TameRun demoEnv
      ((wideEvs ++ [LiveEv.call wideLast .unit true]).flatMap LiveEv.asked) ∧
    (match screenNew demoEnvR demoCfg liveUS with
      | .ok scr _ => decide (scr.data.buf.size = ⟨2, 3⟩)
      | _ => false) = true ∧
    (wideEvs ++ [LiveEv.call wideLast .unit true]).flatMap LiveEv.asked =
      [.writeAt ⟨0, 0⟩ ['世', 'x'], .writeAt ⟨0, 0⟩ ['a', 'b'], .writeAt ⟨1, 0⟩ ['世'], .resize ⟨2, 2⟩,
        .writeAt ⟨0, 0⟩ ['世'], .writeAt ⟨1, 0⟩ ['c', 'd']] := by
  refine ⟨?_, by decide +kernel, rfl⟩
  show (Pic.fresh ⟨2, 3⟩).TameRun demoEnv
      [.writeAt ⟨0, 0⟩ ['世', 'x'], .writeAt ⟨0, 0⟩ ['a', 'b'], .writeAt ⟨1, 0⟩ ['世'], .resize ⟨2, 2⟩,
        .writeAt ⟨0, 0⟩ ['世'], .writeAt ⟨1, 0⟩ ['c', 'd']]
  exact tameRun_of_B _ (by decide +kernel)

end Mortal
