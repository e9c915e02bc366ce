import Verif.Props.WinErase

/-! # C54: exactly what `clear_screen` does when the window is smaller than the buffer -/

namespace Mortal
open Spec

/-- C54: `clear_screen` of a window smaller than the buffer, exactly. The window moves down so far
that it begins below the cursor's line `p.line`, or as far as there are lines. Let `d` be the number
of lines by which it falls short. The lines down to the cursor's go up by `d` lines, to the top of
the buffer, and those left behind are blank; but the lines in between, if more lines are to go than
stay, are not touched, nor are those below the cursor. So the window is clear if and only if all
cells it now shows below the cursor's line, or above line `d`, were blank before. -/
theorem C54_clear_screen_exact (u : UEnv) (k : Nat) (t : WTerm) (s s' : WinSt) (c : Con) (o : OutBuf)
    (D : List WEv) (p : Cursor) (ho : c.outs s.outH = some o) (hs : BufSize o.glyph.size)
    (hw : RectIn o.window o.glyph.size) (hne : o.height ≠ o.glyph.size.lines)
    (hp : o.glyph.cur = some p)
    (h : winClearScreen t s = .ok () s') (hl : s'.log = s.log ++ D) (hr : c.Runs u k D) :
    ∃ c' o' d, c.play u k D = some c' ∧ OnlyBuffer s.outH c c' o o' ∧
      o'.glyph.size = o.glyph.size ∧ o'.window.left = o.window.left ∧ o'.window.right = o.window.right ∧
      o'.window.top = max o.window.top (min (p.line + 1) (o.glyph.size.lines - o.height)) ∧
      o'.window.bottom = o'.window.top + o.height - 1 ∧
      d = (p.line + 1 - o'.window.top).toNat ∧
      (∀ q, InBounds q o.glyph.size →
        (p.line < q.line ∨ (q.line < d ∧ p.line < q.line + d) →
          o'.glyph.cell q = o.glyph.cell q ∧ o'.attr q = o.attr q) ∧
        (q.line + d ≤ p.line → o'.glyph.cell q = o.glyph.cell ⟨q.line + d, q.column⟩ ∧
          o'.attr q = o.attr ⟨q.line + d, q.column⟩) ∧
        (d ≤ q.line → q.line ≤ p.line → p.line < q.line + d → o'.Blank q ∧ o'.attr q = 0)) ∧
      (ClearWindow o o' ↔
        ∀ q, o'.Shows q → p.line < q.line ∨ q.line < d → o.Blank q) := by
  obtain ⟨c', e, p', r, hp', hr1, h1, h2, h3⟩ := (does_clearScreen_window (u := u) (k := k) c s t o ho
    (bufSize_small hs) hw hne).ok s c (.refl c s) () s' D h hl hr
  have := hp'.2 p hp
  subst this
  obtain ⟨w1, w2, w3, w4, w5, w6⟩ := hw
  have hpl := hp'.1.1
  have hht : o.height = o.window.bottom - o.window.top + 1 := rfl
  have hwb : (downWindow o p.line).bottom = o.window.bottom +
    max (min (p.line + 1 - o.window.top) (o.glyph.size.lines - (o.window.bottom + 1))) 0 := rfl
  have hwt : (downWindow o p.line).top = o.window.top +
    max (min (p.line + 1 - o.window.top) (o.glyph.size.lines - (o.window.bottom + 1))) 0 := rfl
  have hsz := (downBuf_size o p.line).1
  have hwin := (downBuf_size o p.line).2
  have hleft : (downBuf o p.line).window.left = o.window.left := by rw [hwin]; rfl
  have hright : (downBuf o p.line).window.right = o.window.right := by rw [hwin]; rfl
  have hlines : ∀ q, InBounds q o.glyph.size →
      (p.line < q.line ∨ (q.line < (p.line + 1 - (downWindow o p.line).top).toNat ∧
        p.line < q.line + (p.line + 1 - (downWindow o p.line).top).toNat) →
        (downBuf o p.line).glyph.cell q = o.glyph.cell q ∧ (downBuf o p.line).attr q = o.attr q) ∧
      (q.line + (p.line + 1 - (downWindow o p.line).top).toNat ≤ p.line →
        (downBuf o p.line).glyph.cell q =
          o.glyph.cell ⟨q.line + (p.line + 1 - (downWindow o p.line).top).toNat, q.column⟩ ∧
        (downBuf o p.line).attr q =
          o.attr ⟨q.line + (p.line + 1 - (downWindow o p.line).top).toNat, q.column⟩) ∧
      ((p.line + 1 - (downWindow o p.line).top).toNat ≤ q.line → q.line ≤ p.line →
        p.line < q.line + (p.line + 1 - (downWindow o p.line).top).toNat →
        (downBuf o p.line).Blank q ∧ (downBuf o p.line).attr q = 0) := by
    intro q hq
    have hql := hq.1
    unfold OutBuf.Blank downBuf
    dsimp only
    by_cases hc : (downWindow o p.line).bottom - p.line < o.height
    · rw [if_pos hc]
      have hd : (o.height - ((downWindow o p.line).bottom - ↑p.line)).toNat =
          (p.line + 1 - (downWindow o p.line).top).toNat := by omega
      unfold OutBuf.scrollLines
      dsimp only
      rw [hd]
      generalize (p.line + 1 - (downWindow o p.line).top).toNat = d at *
      have hmin : min (Int.toNat p.line) (o.glyph.size.lines - 1) = p.line := by omega
      have h0 : Int.toNat 0 = 0 := rfl
      rw [hmin, h0]
      refine ⟨fun hx => ?_, fun hx => ?_, fun x1 x2 x3 => ?_⟩
      · rw [if_neg (by omega), if_neg (by omega), if_neg (by omega), if_neg (by omega)]
        exact ⟨rfl, rfl⟩
      · rw [if_pos (by omega), if_pos (by omega)]
        exact ⟨rfl, rfl⟩
      · rw [if_neg (by omega), if_pos (by omega), if_neg (by omega), if_pos (by omega)]
        exact ⟨rfl, rfl⟩
    · rw [if_neg hc]
      have hd : (p.line + 1 - (downWindow o p.line).top).toNat = 0 := by omega
      rw [hd]
      exact ⟨fun _ => ⟨rfl, rfl⟩, fun _ => ⟨rfl, rfl⟩, fun _ x2 x3 => by omega⟩
  refine ⟨c', _, _, e, onlyBuffer_cat ho h3, hsz, ?_, ?_, ?_, ?_, rfl, ?_, ?_⟩
  · exact hleft
  · exact hright
  · show (downBuf o p.line).window.top = _
    rw [hwin, hwt]; omega
  · show (downBuf o p.line).window.bottom = (downBuf o p.line).window.top + o.height - 1
    rw [hwin, hwt, hwb]; omega
  · show ∀ q, _
    intro q hq
    have := hlines q hq
    rw [← hwin] at this
    exact this
  · have hshow : ∀ q, ((downBuf o p.line).moved r).Shows q →
        (downWindow o p.line).top ≤ q.line ∧ InBounds q o.glyph.size := by
      intro q hq
      obtain ⟨b1, b2, -⟩ := hq
      have b2 : (downBuf o p.line).window.top ≤ q.line := b2
      rw [hwin] at b2
      refine ⟨b2, ?_⟩
      have b1 : InBounds q (downBuf o p.line).glyph.size := b1
      rw [hsz] at b1
      exact b1
    have hd : (p.line + 1 - ((downBuf o p.line).moved r).window.top).toNat =
        (p.line + 1 - (downWindow o p.line).top).toNat := by
      show (p.line + 1 - (downBuf o p.line).window.top).toNat = _
      rw [hwin]
    rw [hd]
    constructor
    · rintro ⟨-, -, -, -, hb, -⟩ q hq hx
      obtain ⟨g1, g2⟩ := hshow q hq
      have hb : (downBuf o p.line).glyph.cell q = .narrow [' '] () := hb q hq
      unfold OutBuf.Blank
      rw [← ((hlines q g2).1 (by omega)).1]
      exact hb
    · intro hx
      refine ⟨hsz, hleft, hright, ?_, fun q hq => ?_, r, rfl, ?_, ?_⟩
      · show (downBuf o p.line).window.bottom - (downBuf o p.line).window.top = _
        rw [hwin, hwt, hwb]; omega
      · obtain ⟨g1, g2⟩ := hshow q hq
        show (downBuf o p.line).glyph.cell q = .narrow [' '] ()
        by_cases hc : p.line < q.line ∨ q.line < (p.line + 1 - (downWindow o p.line).top).toNat
        · rw [((hlines q g2).1 (by omega)).1]
          exact hx q hq hc
        · exact ((hlines q g2).2.2 (by omega) (by omega) (by omega)).1
      · rw [h1]; exact (congrArg Rect.top hwin).symm
      · rw [h2]; exact (congrArg Rect.left hwin).symm

/-- The consoles of `C54_clear_screen_below_refuted`, `C54_clear_screen_scroll_refuted` and
`C54_clear_screen_attrs_refuted` meet the hypotheses: the windows are lines 0 and 1, 1 and 2, and 2
and 3 of buffers of 4, 3 and 4 lines. -/
example : ∀ o ∈ [textOut 4 1 0 0 1, textOut 3 1 2 1 2, textOut 4 2 3 2 3],
    BufSize o.glyph.size ∧ RectIn o.window o.glyph.size ∧ o.height ≠ o.glyph.size.lines ∧
      ∃ p, o.glyph.cur = some p ∧ InBounds p o.glyph.size := by
  intro o ho
  simp only [List.mem_cons, List.not_mem_nil, or_false] at ho
  rcases ho with rfl | rfl | rfl
  all_goals
    exact ⟨by unfold BufSize; decide, by unfold RectIn; decide, by decide, _, rfl, by decide⟩

end Mortal
