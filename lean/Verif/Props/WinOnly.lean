import Verif.Lemmas.WinOnly
import Verif.Props.WinShow

/-!
# What a refresh of a Windows screen writes (C17, C19)

`D` is what happened between the screen and the console during the refresh, whatever the console
answered.
-/

namespace Mortal
open Spec

/-- **C19** on Windows. After a successful refresh and any drawing calls, the next successful refresh
writes to the console, in reading order, the text of cells that changed since, or that the previous
refresh took to be covered by a two-column character; and that of every changed cell, except those
it now takes to be covered. It writes to no other screen buffer. -/
theorem C19_win_only_changed {u : UEnv} (hu : SpaceOk u) (t : WTerm) (x x1 x2 : WScr) (b : Buf)
    (ops : List BufOp) (hg : GridOk x.buf) (h1 : wsRefresh u t x = .ok () x1)
    (hops : ∀ op ∈ ops, ∀ z, op ≠ .resize z) (hb : runOps u ops x1.buf = some b) (hgb : GridOk b)
    (h2 : wsRefresh u t { x1 with buf := b } = .ok () x2) (D : List WEv)
    (hl : x2.w.log = x1.w.log ++ D) (hh : HonestWrites D) :
    ∃ ps : List Cursor, ps.Pairwise Before ∧
      (∀ p ∈ ps, InBounds p b.size ∧ (cellAt b p ≠ cellAt x1.buf p ∨ Shadowed u x1.buf p)) ∧
      (∀ p, InBounds p b.size → ¬ Shadowed u b p → ¬ Shadowed u x1.buf p →
        cellAt b p ≠ cellAt x1.buf p → p ∈ ps) ∧
      decode16 (accepted x1.w.outH D) = some (ps.flatMap (charsAt b), []) ∧
      WritesTo x1.w.outH D := by
  obtain ⟨hbuf, k5⟩ := win_synced hg h1
  obtain ⟨ps, a1, a2, a3, a4, a5⟩ := win_sent_positions (x := { x1 with buf := b }) hgb h2 hl hh
  obtain ⟨e1, e2⟩ := effect_runOps hu ops _ _ hops hb
  have hsz : b.size = x.buf.size := by rw [e2, hbuf]
  have hsync : ∀ p, InBounds p b.size → ¬ Shadowed u x1.buf p →
      b.back[numOf b.size p]? = cellAt x1.buf p := by
    intro p hin hs
    rw [e1, hsz, k5 p (by rw [← hsz]; exact hin) (by rw [hbuf] at hs; exact hs), hbuf]
    rfl
  refine ⟨ps, a1, fun p hp => ?_, fun p hin hs hs1 hne => ?_, a4, a5⟩
  · obtain ⟨g1, g2⟩ := a2 p hp
    refine ⟨g1, ?_⟩
    by_cases hs : Shadowed u x1.buf p
    · exact Or.inr hs
    · left
      rw [← hsync p g1 hs]
      exact g2
  · exact a3 p hin hs (by
      rw [show ({ x1 with buf := b } : WScr).buf = b from rfl, hsync p hin hs1]; exact hne)

/-- **C17** on Windows. After a resize and any drawing calls, a successful refresh writes every visible
cell to the console, in reading order. Missing: buffers with torn two-column characters, see
`C17_cut_refuted` (the buffer is the same on both systems). -/
theorem C17_win_repaints_partial {u : UEnv} (hu : SpaceOk u) (t : WTerm) (x x' : WScr) (d : SData)
    (z : Size) (hd : x.toSData.updateSize z = some d) (ops : List BufOp)
    (hops : ∀ op ∈ ops, ∀ z, op ≠ .resize z) (b : Buf) (hb : runOps u ops d.buf = some b)
    (hgb : GridOk b) (hn : NoTorn u b)
    (h : wsRefresh u t { d with buf := b, w := x.w } = .ok () x') (D : List WEv)
    (hl : x'.w.log = x.w.log ++ D) (hh : HonestWrites D) :
    ∃ ps : List Cursor, ps.Pairwise Before ∧
      (∀ p ∈ ps, InBounds p z) ∧ (∀ p, InBounds p z → ¬ RightHalf u b p → p ∈ ps) ∧
      decode16 (accepted x.w.outH D) = some (ps.flatMap (charsAt b), []) ∧
      WritesTo x.w.outH D := by
  obtain ⟨ps, a1, a2, a3, a4, a5⟩ := win_sent_positions (x := { d with buf := b, w := x.w }) hgb h hl hh
  obtain ⟨e1, e2⟩ := effect_runOps hu ops _ _ hops hb
  unfold SData.updateSize at hd
  cases e3 : x.buf.resize z with
  | none => rw [e3] at hd; cases hd
  | some b' =>
    rw [e3] at hd
    have hd : _ = d := Option.some.inj hd
    subst hd
    have hi : b.Inv := ⟨hgb.size, hgb.len, hgb.backLen, hgb.text⟩
    have hb' : b'.back = List.replicate z.area Cell.invalid ∧ b'.size = z := by
      unfold Buf.resize at e3
      cases e4 : Buf.resizeBuffer x.buf.buffer x.buf.size z with
      | none => rw [e4] at e3; cases e3
      | some l =>
        rw [e4] at e3
        have e3 : _ = b' := Option.some.inj e3
        subst e3
        exact ⟨rfl, rfl⟩
    have hsz : b.size = z := e2.trans hb'.2
    refine ⟨ps, a1, fun p hp => by rw [← hsz]; exact (a2 p hp).1,
      fun p hin hr => a3 p (by rw [← hsz] at hin; exact hin) ?_ ?_, a4, a5⟩
    · rw [← live_shadow]
      exact (live_iff ((noTorn_iff hi).mp hn) (by rw [hsz]; exact hin)).mpr hr
    · show cellAt b p ≠ b.back[numOf b.size p]?
      intro he
      have hlt : numOf b.size p < b.buffer.length := by
        rw [hgb.len]; exact numOf_lt (by rw [hsz]; exact hin)
      have hc : cellAt b p = some b.buffer[numOf b.size p] := List.getElem?_eq_getElem hlt
      rw [hc] at he
      have hmem := List.mem_of_getElem? he.symm
      rw [e1, hb'.1] at hmem
      have := List.eq_of_mem_replicate hmem
      have hne := hgb.text _ (List.getElem_mem hlt)
      rw [this] at hne
      exact hne rfl

/-! ## Examples -/

/-- Every write is honest. -/
def honestIn (l : List WEv) : Bool :=
  l.all fun
    | .call (.write _ us) (.wrote n) => decide (n ≤ us.length)
    | _ => true

theorem honestIn_sound {l : List WEv} (h : honestIn l = true) : HonestWrites l := by
  intro p q r hm
  have := List.all_eq_true.mp h _ hm
  exact of_decide_eq_true this

/-- The state after a refresh that works. -/
def wDone (x : WScr) : Option WScr :=
  match wsRefresh demoEnv demoTerm x with
  | .ok _ x' => some x'
  | _ => none

/-- The same with a drawing call before it. -/
def wShown (op : BufOp) (x : WScr) : Option WScr :=
  (op.run demoEnv x.buf).bind fun b => wDone { x with buf := b }

/-- Non-trivial case: `ab` is shown on an empty screen, then the `b` is changed to `c`, and only the
`c` is written, although the console accepts nothing of it at first. -/
example :
    let os : List ConStep := [⟨[], .wrote 1⟩, ⟨[], .wrote 1⟩, ⟨[], .ok⟩,
      ⟨[], .wrote 0⟩, ⟨[], .wrote 1⟩]
    (((wShown (.writeAt ⟨0, 0⟩ ['a', 'b']) (showOpen os).s).bind fun x1 =>
      (wShown (.writeAt ⟨0, 0⟩ ['a', 'c']) x1).map fun x2 =>
        let D := x2.w.log.drop x1.w.log.length
        (honestIn D, x2.w.log.take x1.w.log.length == x1.w.log, accepted 3 D))) =
      some (true, true, [0x63]) := by
  decide +kernel

/-- Non-trivial case: after a resize the kept `a`, the new `x` and the blank are all written. -/
example :
    let os : List ConStep := [⟨[], .wrote 1⟩, ⟨[], .wrote 1⟩,
      ⟨[], .info ⟨⟨3, 1⟩, ⟨0, 0⟩, 7, ⟨0, 0, 2, 0⟩⟩⟩, ⟨[], .ok⟩, ⟨[], .ok⟩, ⟨[], .ok⟩,
      ⟨[], .ok⟩, ⟨[], .wrote 1⟩, ⟨[], .wrote 1⟩, ⟨[], .wrote 1⟩, ⟨[], .ok⟩, ⟨[], .ok⟩]
    (((wShown (.writeAt ⟨0, 0⟩ ['a', 'b']) (showOpen os).s).bind fun x1 =>
      (x1.toSData.updateSize ⟨1, 3⟩).bind fun d =>
      (wShown (.writeAt ⟨0, 1⟩ ['x']) { d with w := x1.w }).map fun x2 =>
        let D := x2.w.log.drop x1.w.log.length
        (honestIn D, accepted 3 D))) = some (true, [0x61, 0x78, 0x20]) := by
  decide +kernel

end Mortal
