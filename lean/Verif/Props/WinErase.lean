import Verif.Lemmas.WinNoPanic
import Verif.Lemmas.WinCheck
import Verif.Spec.WinMode

/-! # C54: cursor and erasing commands do what they say on a Windows console

In all theorems `D` is what was recorded during the call, `c` the console before it and `c'` the console
after it; other events may happen in between. -/

namespace Mortal
open Spec

/-! ## The cursor -/

/-- **C54.** `move_cursor` succeeds only for positions in the buffer; the cursor is there, and nothing
else has changed. -/
theorem C54_move_cursor (u : UEnv) (k : Nat) (p : Cursor) (s s' : WinSt) (c : Con) (o : OutBuf)
    (D : List WEv) (ho : c.outs s.outH = some o) (hs : BufSize o.glyph.size)
    (h : winMoveCursor p s = .ok () s') (hl : s'.log = s.log ++ D) (hr : c.Runs u k D) :
    InBounds p o.glyph.size ∧
    ∃ c' o', c.play u k D = some c' ∧ OnlyBuffer s.outH c c' o o' ∧ CursorTo p o o' := by
  obtain ⟨c', e, o', h1, ⟨r, hr1, er⟩, h2⟩ :=
    (does_moveAbs (u := u) (k := k) c s (cursorToCoord p)).ok s c (.refl c s) () s' D h hl hr
  rw [ho] at h1; cases h1
  obtain ⟨s1, s2, s3, s4⟩ := id hs
  have hz := bufSize_small hs
  rw [er, (coord_at hz hr1).1] at h2
  have hp : r = p := by
    obtain ⟨b1, b2⟩ := id hr1
    unfold cursorToCoord atCoord toShort at er
    simp only [Coord.mk.injEq] at er
    obtain ⟨e1, e2⟩ := er
    rw [cursor_ext]
    constructor
    · split at e2 <;> omega
    · split at e1 <;> omega
  subst hp
  exact ⟨hr1, c', _, e, onlyBuffer_cat ho h2, rfl⟩

/-- **C54.** After `move_to_first_column` the cursor is in the first column of the line where it was. -/
theorem C54_first_column (u : UEnv) (k : Nat) (s s' : WinSt) (c : Con) (o : OutBuf)
    (D : List WEv) (ho : c.outs s.outH = some o) (hs : BufSize o.glyph.size)
    (h : winFirstColumn s = .ok () s') (hl : s'.log = s.log ++ D) (hr : c.Runs u k D) :
    ∃ c' o' p, c.play u k D = some c' ∧ OnlyBuffer s.outH c c' o o' ∧ CursorIn o p ∧
      CursorTo ⟨p.line, 0⟩ o o' := by
  obtain ⟨c', e, p, hp, h2⟩ :=
    (does_firstColumn (u := u) (k := k) c s o ho (bufSize_small hs)).ok s c (.refl c s) () s' D h hl hr
  exact ⟨c', _, p, e, onlyBuffer_cat ho h2, hp, rfl⟩

/-- **C54.** `move_right` and `move_down` move the cursor by that many columns or lines, at most to the
last one. -/
theorem C54_move_forward (u : UEnv) (k : Nat) (n : Nat) (s s' : WinSt) (c : Con) (o : OutBuf)
    (D : List WEv) (ho : c.outs s.outH = some o) (hs : BufSize o.glyph.size)
    (hl : s'.log = s.log ++ D) (hr : c.Runs u k D) :
    (winMoveRight n s = .ok () s' → ∃ c' o' p, c.play u k D = some c' ∧
      OnlyBuffer s.outH c c' o o' ∧ CursorIn o p ∧
      CursorTo ⟨p.line, min (p.column + n) (o.glyph.size.columns - 1)⟩ o o') ∧
    (winMoveDown n s = .ok () s' → ∃ c' o' p, c.play u k D = some c' ∧
      OnlyBuffer s.outH c c' o o' ∧ CursorIn o p ∧
      CursorTo ⟨min (p.line + n) (o.glyph.size.lines - 1), p.column⟩ o o') := by
  obtain ⟨s1, s2, s3, s4⟩ := id hs
  constructor
  · intro h
    obtain ⟨c', e, p, r, hp, hr1, e1, e2, h2⟩ := (does_moveRel (u := u) (k := k) c s o _ ho
      (bufSize_small hs)).ok s c (.refl c s) () s' D h hl hr
    have b1 := hp.1.1
    have b2 := hp.1.2
    have : r = ⟨p.line, min (p.column + n) (o.glyph.size.columns - 1)⟩ := by
      unfold shortSatAdd toShort at *
      rw [cursor_ext]
      dsimp only at *
      constructor
      · repeat' split at e2
        all_goals omega
      · repeat' split at e1
        all_goals omega
    subst this
    exact ⟨c', _, p, e, onlyBuffer_cat ho h2, hp, rfl⟩
  · intro h
    obtain ⟨c', e, p, r, hp, hr1, e1, e2, h2⟩ := (does_moveRel (u := u) (k := k) c s o _ ho
      (bufSize_small hs)).ok s c (.refl c s) () s' D h hl hr
    have b1 := hp.1.1
    have b2 := hp.1.2
    have : r = ⟨min (p.line + n) (o.glyph.size.lines - 1), p.column⟩ := by
      unfold shortSatAdd toShort at *
      rw [cursor_ext]
      dsimp only at *
      constructor
      · repeat' split at e2
        all_goals omega
      · repeat' split at e1
        all_goals omega
    subst this
    exact ⟨c', _, p, e, onlyBuffer_cat ho h2, hp, rfl⟩

/-- **C54.** `move_left` and `move_up` succeed only if the cursor can move that far, and then move it
by that many columns or lines. -/
theorem C54_move_backward (u : UEnv) (k : Nat) (n : Nat) (s s' : WinSt) (c : Con) (o : OutBuf)
    (D : List WEv) (ho : c.outs s.outH = some o) (hs : BufSize o.glyph.size)
    (hl : s'.log = s.log ++ D) (hr : c.Runs u k D) :
    (winMoveLeft n s = .ok () s' → ∃ c' o' p, c.play u k D = some c' ∧
      OnlyBuffer s.outH c c' o o' ∧ CursorIn o p ∧ n ≤ p.column ∧
      CursorTo ⟨p.line, p.column - n⟩ o o') ∧
    (winMoveUp n s = .ok () s' → ∃ c' o' p, c.play u k D = some c' ∧
      OnlyBuffer s.outH c c' o o' ∧ CursorIn o p ∧ n ≤ p.line ∧
      CursorTo ⟨p.line - n, p.column⟩ o o') := by
  obtain ⟨s1, s2, s3, s4⟩ := id hs
  constructor
  · intro h
    obtain ⟨c', e, p, r, hp, hr1, e1, e2, h2⟩ := (does_moveRel (u := u) (k := k) c s o _ ho
      (bufSize_small hs)).ok s c (.refl c s) () s' D h hl hr
    have b1 := hp.1.1
    have b2 := hp.1.2
    have hn : r.line = p.line ∧ n ≤ p.column ∧ r.column = p.column - n := by
      unfold shortSatAdd toShortNeg at *
      dsimp only at *
      refine ⟨?_, ?_, ?_⟩
      · repeat' split at e2
        all_goals omega
      · repeat' split at e1
        all_goals omega
      · repeat' split at e1
        all_goals omega
    have : r = ⟨p.line, p.column - n⟩ := cursor_ext.mpr ⟨hn.1, hn.2.2⟩
    subst this
    exact ⟨c', _, p, e, onlyBuffer_cat ho h2, hp, hn.2.1, rfl⟩
  · intro h
    obtain ⟨c', e, p, r, hp, hr1, e1, e2, h2⟩ := (does_moveRel (u := u) (k := k) c s o _ ho
      (bufSize_small hs)).ok s c (.refl c s) () s' D h hl hr
    have b1 := hp.1.1
    have b2 := hp.1.2
    have hn : r.column = p.column ∧ n ≤ p.line ∧ r.line = p.line - n := by
      unfold shortSatAdd toShortNeg at *
      dsimp only at *
      refine ⟨?_, ?_, ?_⟩
      · repeat' split at e1
        all_goals omega
      · repeat' split at e2
        all_goals omega
      · repeat' split at e2
        all_goals omega
    have : r = ⟨p.line - n, p.column⟩ := cursor_ext.mpr ⟨hn.2.2, hn.1⟩
    subst this
    exact ⟨c', _, p, e, onlyBuffer_cat ho h2, hp, hn.2.1, rfl⟩

/-- The calls that move the cursor or change its shape. -/
inductive MoveCmd
  | to (p : Cursor) | first | up (n : Nat) | down (n : Nat) | left (n : Nat) | right (n : Nat)
  | shape (m : CursorMode)

/-- The call. -/
def MoveCmd.run : MoveCmd → WM Unit
  | .to p => winMoveCursor p
  | .first => winFirstColumn
  | .up n => winMoveUp n
  | .down n => winMoveDown n
  | .left n => winMoveLeft n
  | .right n => winMoveRight n
  | .shape m => winCursorMode m

/-- **C54.** A call of these that fails has changed nothing. -/
theorem C54_move_failed (u : UEnv) (k : Nat) (m : MoveCmd) (s s' : WinSt) (c : Con) (o : OutBuf)
    (e : IoErr) (D : List WEv) (ho : c.outs s.outH = some o) (hs : BufSize o.glyph.size)
    (h : m.run s = .err e s') (hl : s'.log = s.log ++ D) (hr : c.Runs u k D) :
    ∃ c', c.play u k D = some c' ∧ OnlyQueue c c' := by
  have hz := bufSize_small hs
  have key : ∃ Q, Does u k (CAt c s) m.run Q (fun _ => CAt c s) := by
    cases m with
    | to p => exact ⟨_, does_moveAbs c s _⟩
    | first => exact ⟨_, does_firstColumn c s o ho hz⟩
    | up n => exact ⟨_, does_moveRel c s o _ ho hz⟩
    | down n => exact ⟨_, does_moveRel c s o _ ho hz⟩
    | left n => exact ⟨_, does_moveRel c s o _ ho hz⟩
    | right n => exact ⟨_, does_moveRel c s o _ ho hz⟩
    | shape m => exact ⟨_, does_cursorMode c s m⟩
  obtain ⟨Q, hd⟩ := key
  obtain ⟨c', e1, h1⟩ := hd.err s c (.refl c s) e s' D h hl hr
  exact ⟨c', e1, onlyQueue_cat h1⟩

/-- **C54.** `set_cursor_mode` makes the cursor invisible or visible, with a quarter or the whole of the
cell for the normal and the overwrite mode, and changes nothing else. -/
theorem C54_cursor_mode (u : UEnv) (k : Nat) (m : CursorMode) (s s' : WinSt) (c : Con)
    (D : List WEv) (h : winCursorMode m s = .ok () s') (hl : s'.log = s.log ++ D)
    (hr : c.Runs u k D) :
    ∃ c' o o', c.play u k D = some c' ∧ OnlyBuffer s.outH c c' o o' ∧
      o' = { o with shape := o'.shape } ∧ (o'.shape.2 = true ↔ m ≠ .invisible) ∧
      (m = .normal → o'.shape.1 = 25) ∧ (m = .overwrite → o'.shape.1 = 100) := by
  obtain ⟨c', e, o, ho, h2⟩ :=
    (does_cursorMode (u := u) (k := k) c s m).ok s c (.refl c s) () s' D h hl hr
  refine ⟨c', o, _, e, onlyBuffer_cat ho h2, rfl, ?_⟩
  cases m <;> simp

/-! ## Erasing -/

/-- **C54.** `clear_to_line_end` erases exactly the cells from the cursor to the end of its line. -/
theorem C54_line_end (u : UEnv) (k : Nat) (t : WTerm) (s s' : WinSt) (c : Con) (o : OutBuf)
    (D : List WEv) (hsp : u.w ' ' = 1) (ho : c.outs s.outH = some o) (hs : BufSize o.glyph.size)
    (h : winClearToLineEnd t s = .ok () s') (hl : s'.log = s.log ++ D) (hr : c.Runs u k D) :
    ∃ c' o' p, c.play u k D = some c' ∧ OnlyBuffer s.outH c c' o o' ∧ CursorIn o p ∧
      Erased (RestOfLine p) t.defAttrs o o' := by
  obtain ⟨c', e, p, o', hp, h1, h2⟩ :=
    (does_clearToLineEnd (k := k) hsp c s t o ho (bufSize_small hs)).ok s c (.refl c s) () s' D h hl hr
  exact ⟨c', o', p, e, onlyBuffer_cat ho h2, hp, h1⟩

/-- **C54.** `clear_to_screen_end` erases exactly the cells from the cursor to the end of its line, and
the lines below. -/
theorem C54_screen_end (u : UEnv) (k : Nat) (t : WTerm) (s s' : WinSt) (c : Con) (o : OutBuf)
    (D : List WEv) (hsp : u.w ' ' = 1) (ho : c.outs s.outH = some o) (hs : BufSize o.glyph.size)
    (h : winClearToScreenEnd t s = .ok () s') (hl : s'.log = s.log ++ D) (hr : c.Runs u k D) :
    ∃ c' o' p, c.play u k D = some c' ∧ OnlyBuffer s.outH c c' o o' ∧ CursorIn o p ∧
      Erased (RestOfScreen p) t.defAttrs o o' := by
  obtain ⟨c', e, p, o', hp, h1, h2⟩ :=
    (does_clearToScreenEnd (k := k) hsp c s t o ho (bufSize_small hs)).ok s c (.refl c s) () s' D h hl hr
  exact ⟨c', o', p, e, onlyBuffer_cat ho h2, hp, h1⟩

/-- **C54.** If one of these fails, no text is erased and nothing changes but perhaps attributes of
cells that were to be erased. -/
theorem C54_erase_failed (u : UEnv) (k : Nat) (t : WTerm) (s s' : WinSt) (c : Con) (o : OutBuf)
    (er : IoErr) (D : List WEv) (hsp : u.w ' ' = 1) (ho : c.outs s.outH = some o)
    (hs : BufSize o.glyph.size) (hl : s'.log = s.log ++ D) (hr : c.Runs u k D) :
    (winClearToLineEnd t s = .err er s' → ∃ c', c.play u k D = some c' ∧ (OnlyQueue c c' ∨
      ∃ o' p, OnlyBuffer s.outH c c' o o' ∧ CursorIn o p ∧
        Recoloured (RestOfLine p) t.defAttrs o o')) ∧
    (winClearToScreenEnd t s = .err er s' → ∃ c', c.play u k D = some c' ∧ (OnlyQueue c c' ∨
      ∃ o' p, OnlyBuffer s.outH c c' o o' ∧ CursorIn o p ∧
        Recoloured (RestOfScreen p) t.defAttrs o o')) := by
  constructor
  · intro h
    obtain ⟨c', e, h1⟩ := (does_clearToLineEnd (k := k) hsp c s t o ho
      (bufSize_small hs)).err s c (.refl c s) er s' D h hl hr
    refine ⟨c', e, ?_⟩
    rcases h1 with h1 | ⟨p, o', hp, h1, h2⟩
    · exact Or.inl (onlyQueue_cat h1)
    · exact Or.inr ⟨o', p, onlyBuffer_cat ho h2, hp, h1⟩
  · intro h
    obtain ⟨c', e, h1⟩ := (does_clearToScreenEnd (k := k) hsp c s t o ho
      (bufSize_small hs)).err s c (.refl c s) er s' D h hl hr
    refine ⟨c', e, ?_⟩
    rcases h1 with h1 | ⟨p, o', hp, h1, h2⟩
    · exact Or.inl (onlyQueue_cat h1)
    · exact Or.inr ⟨o', p, onlyBuffer_cat ho h2, hp, h1⟩

/-- **C54.** `clear_screen`, when the window is as high as the buffer: all cells are blank with the
default attributes, and the cursor is in the corner of the window. -/
theorem C54_clear_screen_full (u : UEnv) (k : Nat) (t : WTerm) (s s' : WinSt) (c : Con) (o : OutBuf)
    (D : List WEv) (hsp : u.w ' ' = 1) (ho : c.outs s.outH = some o) (hs : BufSize o.glyph.size)
    (hw : RectIn o.window o.glyph.size) (hf : o.height = o.glyph.size.lines)
    (h : winClearScreen t s = .ok () s') (hl : s'.log = s.log ++ D) (hr : c.Runs u k D) :
    ∃ c' o', c.play u k D = some c' ∧ OnlyBuffer s.outH c c' o o' ∧ ClearWindow o o' ∧
      o'.window = o.window ∧ ∀ q, InBounds q o.glyph.size → o'.Blank q ∧ o'.attr q = t.defAttrs := by
  obtain ⟨c', e, r, h1, h2, h3⟩ := (does_clearScreen_full (k := k) hsp c s t o ho
    (bufSize_small hs) hw hf).ok s c (.refl c s) () s' D h hl hr
  exact ⟨c', _, e, onlyBuffer_cat ho h3, ⟨rfl, rfl, rfl, rfl, fun _ _ => rfl, r, rfl, h1, h2⟩, rfl,
    fun _ _ => ⟨rfl, rfl⟩⟩

/-- **C54.** `clear_screen`, when the window is smaller than the buffer: the window shows only blank
lines and the cursor is in its corner.
*Missing:* text below the cursor (`C54_clear_screen_below_refuted`) and windows too large for the lines
in them to be scrolled away (`C54_clear_screen_scroll_refuted`), for which it is false; and that the
cells have the default attributes, which is false too (`C54_clear_screen_attrs_refuted`). -/
theorem C54_clear_screen_partial (u : UEnv) (k : Nat) (t : WTerm) (s s' : WinSt) (c : Con) (o : OutBuf)
    (D : List WEv) (p : Cursor) (ho : c.outs s.outH = some o) (hs : BufSize o.glyph.size)
    (hw : RectIn o.window o.glyph.size) (hne : o.height ≠ o.glyph.size.lines)
    (hp : o.glyph.cur = some p)
    (hbelow : ∀ q, InBounds q o.glyph.size → p.line < q.line → o.Blank q)
    (hfit : (p.line : Int) + 1 ≤ 2 * (o.glyph.size.lines - o.height))
    (h : winClearScreen t s = .ok () s') (hl : s'.log = s.log ++ D) (hr : c.Runs u k D) :
    ∃ c' o', c.play u k D = some c' ∧ OnlyBuffer s.outH c c' o o' ∧ ClearWindow o o' := by
  obtain ⟨c', e, p', r, hp', hr1, h1, h2, h3⟩ := (does_clearScreen_window (u := u) (k := k) c s t o ho
    (bufSize_small hs) hw hne).ok s c (.refl c s) () s' D h hl hr
  have := hp'.2 p hp
  subst this
  refine ⟨c', _, e, onlyBuffer_cat ho h3, (downBuf_size o p.line).1, ?_, ?_, ?_, ?_, r, rfl, ?_, ?_⟩
  · have hx := congrArg Rect.left (downBuf_size o p.line).2
    exact hx
  · have hx := congrArg Rect.right (downBuf_size o p.line).2
    exact hx
  · show (downBuf o p.line).window.bottom - (downBuf o p.line).window.top = _
    rw [(downBuf_size o p.line).2]
    unfold downWindow
    dsimp only
    omega
  · exact fun q hq => downBuf_blank hw hp'.1 hbelow hfit q hq
  · rw [h1]; exact (congrArg Rect.top (downBuf_size o p.line).2).symm
  · rw [h2]; exact (congrArg Rect.left (downBuf_size o p.line).2).symm

/-- **C54.** And nothing is lost as long as the window can move down far enough. -/
theorem C54_clear_screen_preserves (u : UEnv) (k : Nat) (t : WTerm) (s s' : WinSt) (c : Con)
    (o : OutBuf) (D : List WEv) (p : Cursor) (ho : c.outs s.outH = some o) (hs : BufSize o.glyph.size)
    (hw : RectIn o.window o.glyph.size) (hp : o.glyph.cur = some p)
    (hroom : (p.line : Int) + 1 + o.height ≤ o.glyph.size.lines)
    (h : winClearScreen t s = .ok () s') (hl : s'.log = s.log ++ D) (hr : c.Runs u k D) :
    ∃ c' o', c.play u k D = some c' ∧ OnlyBuffer s.outH c c' o o' ∧
      (∀ q, o'.glyph.cell q = o.glyph.cell q ∧ o'.attr q = o.attr q) ∧
      (o.window.top ≤ p.line → o'.window.top = p.line + 1) := by
  have hne : o.height ≠ o.glyph.size.lines := by omega
  obtain ⟨c', e, p', r, hp', hr1, h1, h2, h3⟩ := (does_clearScreen_window (u := u) (k := k) c s t o ho
    (bufSize_small hs) hw hne).ok s c (.refl c s) () s' D h hl hr
  have := hp'.2 p hp
  subst this
  obtain ⟨w1, w2, w3, w4, w5, w6⟩ := hw
  have hht : o.height = o.window.bottom - o.window.top + 1 := rfl
  refine ⟨c', _, e, onlyBuffer_cat ho h3, fun q => ?_, fun hq => ?_⟩
  · have he : downBuf o p.line = ({ o with window := downWindow o p.line } : OutBuf) := by
      refine if_neg ?_
      unfold downWindow
      dsimp only
      omega
    rw [he]
    exact ⟨rfl, rfl⟩
  · show (downBuf o p.line).window.top = _
    rw [(downBuf_size o p.line).2]
    unfold downWindow
    dsimp only
    omega

/-- **C54.** `size` tells the size of the buffer and changes nothing. -/
theorem C54_size (u : UEnv) (k : Nat) (s s' : WinSt) (c : Con) (o : OutBuf) (z : Size) (D : List WEv)
    (ho : c.outs s.outH = some o) (hs : BufSize o.glyph.size) (h : winSize s = .ok z s')
    (hl : s'.log = s.log ++ D) (hr : c.Runs u k D) :
    z = o.glyph.size ∧ ∃ c', c.play u k D = some c' ∧ OnlyQueue c c' := by
  have hd : Does u k (CAt c s) winSize (fun z c' s' => z = o.glyph.size ∧ CAt c s c' s')
      (fun _ _ _ => True) := by
    unfold winSize consoleSize
    refine Does.getAt (by intro _; grows_tac) fun a e _ => ?_
    rw [e]
    refine Does.bind (does_info c s (fun _ _ _ => trivial) s.outH) fun i => ?_
    refine Does.assume (Grows.pure _) ?_
    rintro ⟨o', h1, hi⟩
    rw [ho] at h1; cases h1
    refine Does.mono (Does.pure _ (P := CAt c s) (E := fun _ _ _ => True)) (fun _ _ h => h) ?_
      (fun _ _ _ _ => trivial)
    rintro z c' s' ⟨rfl, h⟩
    refine ⟨?_, h⟩
    rw [hi.1]
    obtain ⟨s1, s2, s3, s4⟩ := hs
    obtain ⟨⟨⟨l, w⟩, _, _, _, _⟩, _, _, _, _, _, _⟩ := o
    unfold coordToSize sizeCoord shortToUsize
    dsimp only at *
    congr 1 <;> omega
  obtain ⟨c', e, hz, h1⟩ := hd.ok s c (.refl c s) z s' D h hl hr
  exact ⟨hz, c', e, onlyQueue_cat h1⟩

/-- **C54.** None of the calls panics, if what the console says of the buffer is sane. -/
theorem C54_no_panic (t : WTerm) (s : WinSt)
    (hi : ∀ st l i, s.os = st :: l → st.ans = .info i →
      ∃ o : OutBuf, o.Tells i ∧ BufSize o.glyph.size ∧ RectIn o.window o.glyph.size) :
    (∀ m : MoveCmd, m.run s ≠ .stop .panic) ∧ winClearToLineEnd t s ≠ .stop .panic ∧
    winClearToScreenEnd t s ≠ .stop .panic ∧ winClearScreen t s ≠ .stop .panic := by
  have hrel : ∀ off, NoPanicAt (moveRel off) s := by
    intro off
    refine noPanicAt_info fun st l i h1 h2 => ?_
    obtain ⟨o, ht, hs, -⟩ := hi st l i h1 h2
    obtain ⟨p, hp, ep⟩ := tells_cursor ht
    rw [ep, ht.1, moveRelDest_eq (bufSize_small hs)]
    exact .bind (neverPanics_some _) fun _ => neverPanics_moveAbs _
  refine ⟨fun m => ?_, ?_, ?_, neverPanics_clearScreen hi⟩
  · cases m with
    | to p => exact neverPanics_moveAbs _ s
    | first => exact noPanicAt_info fun _ _ _ _ _ => neverPanics_moveAbs _
    | up n => exact hrel _
    | down n => exact hrel _
    | left n => exact hrel _
    | right n => exact hrel _
    | shape m =>
      show NoPanicAt (winCursorMode m) s
      cases m <;> exact NeverPanics.bind neverPanics_get (fun _ => neverPanics_boolCall _) s
  · refine noPanicAt_info fun st l i h1 h2 => ?_
    obtain ⟨o, ht, hs, -⟩ := hi st l i h1 h2
    obtain ⟨p, hp, ep⟩ := tells_cursor ht
    obtain ⟨n, hn, -⟩ := lineEndCount_eq (bufSize_small hs) hp.1
    rw [ep, ht.1, hn]
    exact .bind (neverPanics_some _) fun _ => neverPanics_clearArea _ _ _
  · refine noPanicAt_info fun st l i h1 h2 => ?_
    obtain ⟨o, ht, hs, -⟩ := hi st l i h1 h2
    obtain ⟨p, hp, ep⟩ := tells_cursor ht
    obtain ⟨n, hn, -⟩ := screenEndCount_eq (bufSize_small hs) hp.1
    rw [ep, ht.1, hn]
    exact .bind (neverPanics_some _) fun _ => neverPanics_clearArea _ _ _

/-! ## Concrete consoles -/

/-- A buffer of `lines` lines of two columns with an `x` at the beginning of line `x`. -/
def textOut (lines x cur : Nat) (top bottom : Int) : OutBuf where
  glyph := { size := ⟨lines, 2⟩
             cell := fun q => if q = ⟨x, 0⟩ then .narrow ['x'] () else .narrow [' '] ()
             cur := some ⟨cur, 0⟩
             last := none
             attrs := () }
  attr := fun _ => 7
  word := 7
  window := ⟨0, top, 1, bottom⟩
  mode := 3
  shape := (25, true)

/-- A console with that buffer. -/
def textCon (o : OutBuf) : Con where
  inMode := 0x1F7
  handlers := 0
  queue := []
  active := 2
  outs := fun h => if h = 2 then some o else none

/-- What it tells. -/
def textInfo (lines cur : Nat) (top bottom : Int) : Info where
  size := ⟨2, lines⟩
  cursor := ⟨0, cur⟩
  attrs := 7
  window := ⟨0, top, 1, bottom⟩

/-- `clear_screen` succeeds on a console, and makes it another. -/
def ClearsTo (os : List ConStep) (o o' : OutBuf) : Prop :=
  ∃ s' c', winClearScreen demoTerm (demoSt os) = .ok () s' ∧
    (textCon o).Runs demoEnv 1 s'.log ∧ (textCon o).play demoEnv 1 s'.log = some c' ∧
    c'.outs 2 = some o' ∧ BufSize o.glyph.size ∧ RectIn o.window o.glyph.size ∧
    ∃ p, o.glyph.cur = some p ∧ InBounds p o.glyph.size

/-- Evaluation of the above. -/
def clearRun (os : List ConStep) (o : OutBuf) : Option OutBuf :=
  match winClearScreen demoTerm (demoSt os) with
  | .ok () s' => (checkPlay demoEnv 1 s'.log (textCon o)).bind fun c' => c'.outs 2
  | _ => none

theorem clearRun_sound {os : List ConStep} {o o' : OutBuf} (h : clearRun os o = some o')
    (hs : BufSize o.glyph.size) (hw : RectIn o.window o.glyph.size)
    (hp : ∃ p, o.glyph.cur = some p ∧ InBounds p o.glyph.size) : ClearsTo os o o' := by
  unfold clearRun at h
  split at h
  · rename_i s' e
    rw [Option.bind_eq_some_iff] at h
    obtain ⟨c', h1, h2⟩ := h
    obtain ⟨g1, g2⟩ := checkPlay_sound _ _ _ h1
    exact ⟨s', c', e, g1, g2, h2, hs, hw, hp⟩
  · cases h

/-- **C54.** The window may show text after `clear_screen`: the window is lines 0 and 1 of 4, the cursor
is on line 0 and there is text on line 1. The window is moved down by one line, to show that text. -/
theorem C54_clear_screen_below_refuted : ∃ os o o' q, ClearsTo os o o' ∧ o'.Shows q ∧ ¬ o'.Blank q ∧
    ¬ ClearWindow o o' := by
  have h0 : (clearRun [{ ans := .info (textInfo 4 0 0 1) }, { ans := .ok }, { ans := .ok }]
    (textOut 4 1 0 0 1)).isSome = true := by decide +kernel
  have h1 : (clearRun [{ ans := .info (textInfo 4 0 0 1) }, { ans := .ok }, { ans := .ok }]
    (textOut 4 1 0 0 1)).any (fun o' => o'.window.top == 1 && o'.window.bottom == 2 &&
      o'.glyph.size == ⟨4, 2⟩ && o'.glyph.cell ⟨1, 0⟩ == .narrow ['x'] ()) = true := by decide +kernel
  obtain ⟨o', ho⟩ := Option.isSome_iff_exists.mp h0
  rw [ho] at h1
  simp only [Option.any_some, Bool.and_eq_true, beq_iff_eq] at h1
  obtain ⟨⟨⟨e1, e2⟩, e3⟩, e4⟩ := h1
  have a : o'.Shows ⟨1, 0⟩ := by
    refine ⟨?_, ?_, ?_⟩
    · rw [e3]; decide
    · rw [e1]; decide
    · rw [e2]; decide
  have b : ¬ o'.Blank ⟨1, 0⟩ := by unfold OutBuf.Blank; rw [e4]; decide
  exact ⟨_, _, o', ⟨1, 0⟩, clearRun_sound ho (by unfold BufSize; decide) (by unfold RectIn; decide)
    ⟨_, rfl, by decide⟩, a, b, fun h => b (h.2.2.2.2.1 _ a)⟩

/-- **C54.** Likewise: the window is lines 1 and 2 of 3, the cursor is on the last line, below the text.
One line is scrolled to the top of the buffer, and the other stays where it is. -/
theorem C54_clear_screen_scroll_refuted : ∃ os o o' q, ClearsTo os o o' ∧ o'.Shows q ∧ ¬ o'.Blank q ∧
    ¬ ClearWindow o o' ∧
    ∀ p, o.glyph.cur = some p → ∀ q, InBounds q o.glyph.size → p.line < q.line → o.Blank q := by
  have h0 : (clearRun [{ ans := .info (textInfo 3 2 1 2) }, { ans := .ok }, { ans := .ok }]
    (textOut 3 1 2 1 2)).isSome = true := by decide +kernel
  have h1 : (clearRun [{ ans := .info (textInfo 3 2 1 2) }, { ans := .ok }, { ans := .ok }]
    (textOut 3 1 2 1 2)).any (fun o' => o'.window.top == 1 && o'.window.bottom == 2 &&
      o'.glyph.size == ⟨3, 2⟩ && o'.glyph.cell ⟨1, 0⟩ == .narrow ['x'] ()) = true := by decide +kernel
  obtain ⟨o', ho⟩ := Option.isSome_iff_exists.mp h0
  rw [ho] at h1
  simp only [Option.any_some, Bool.and_eq_true, beq_iff_eq] at h1
  obtain ⟨⟨⟨e1, e2⟩, e3⟩, e4⟩ := h1
  have a : o'.Shows ⟨1, 0⟩ := by
    refine ⟨?_, ?_, ?_⟩
    · rw [e3]; decide
    · rw [e1]; decide
    · rw [e2]; decide
  have b : ¬ o'.Blank ⟨1, 0⟩ := by unfold OutBuf.Blank; rw [e4]; decide
  refine ⟨_, _, o', ⟨1, 0⟩, clearRun_sound ho (by unfold BufSize; decide) (by unfold RectIn; decide)
    ⟨_, rfl, by decide⟩, a, b, fun h => b (h.2.2.2.2.1 _ a), ?_⟩
  rintro p hp q hq hl
  cases hp
  have := hq.1
  dsimp only [textOut] at this hl
  omega

/-- **C54.** Cells of the window may have attributes other than the default ones after `clear_screen`
(which became 0: black on black), even if they had the default ones before. -/
theorem C54_clear_screen_attrs_refuted : ∃ os o o' q, ClearsTo os o o' ∧ ClearWindow o o' ∧
    o'.Shows q ∧ (∀ q, o.attr q = demoTerm.defAttrs) ∧ o'.attr q = 0 ∧ demoTerm.defAttrs ≠ 0 := by
  have h0 : (clearRun [{ ans := .info (textInfo 4 3 2 3) }, { ans := .ok }, { ans := .ok }]
    (textOut 4 2 3 2 3)).isSome = true := by decide +kernel
  have h1 : (clearRun [{ ans := .info (textInfo 4 3 2 3) }, { ans := .ok }, { ans := .ok }]
    (textOut 4 2 3 2 3)).any (fun o' => o'.window.top == 2 && o'.window.bottom == 3 &&
      o'.glyph.size == ⟨4, 2⟩ && o'.attr ⟨2, 0⟩ == 0) = true := by decide +kernel
  obtain ⟨o', ho⟩ := Option.isSome_iff_exists.mp h0
  rw [ho] at h1
  simp only [Option.any_some, Bool.and_eq_true, beq_iff_eq] at h1
  obtain ⟨⟨⟨e1, e2⟩, e3⟩, e4⟩ := h1
  have a : o'.Shows ⟨2, 0⟩ := by
    refine ⟨?_, ?_, ?_⟩
    · rw [e3]; decide
    · rw [e1]; decide
    · rw [e2]; decide
  have hc := clearRun_sound ho (by unfold BufSize; decide) (by unfold RectIn; decide)
    ⟨_, rfl, by decide⟩
  refine ⟨_, _, o', ⟨2, 0⟩, hc, ?_, a, fun _ => rfl, e4, by decide⟩
  obtain ⟨s', c', f1, f2, f3, f4, -⟩ := hc
  obtain ⟨c2, o2, g1, g2, g3⟩ := C54_clear_screen_partial demoEnv 1 demoTerm _ s' _
    (textOut 4 2 3 2 3) s'.log ⟨3, 0⟩ rfl (by unfold BufSize; decide) (by unfold RectIn; decide) (by decide) rfl
    (by
      rintro q hq hl
      have := hq.1
      dsimp only [textOut] at this hl
      omega) (by decide) f1 rfl f2
  rw [f3] at g1
  cases g1
  have := g2.2.2.2.2.2
  rw [show (demoSt _).outH = 2 from rfl, f4] at this
  cases this
  exact g3

/-- A call that succeeds on a console (the record passes the check), and the buffer afterwards. -/
def cmdRun (m : WM Unit) (os : List ConStep) (o : OutBuf) : Option OutBuf :=
  match m (demoSt os) with
  | .ok () s' => (checkPlay demoEnv 1 s'.log (textCon o)).bind fun c' => c'.outs 2
  | _ => none

/-- The cursor on line 1 of 4, on the `x`; all calls are granted. -/
example : BufSize (textOut 4 1 1 0 1).glyph.size ∧ RectIn (textOut 4 1 1 0 1).window ⟨4, 2⟩ ∧
    (cmdRun (winClearToLineEnd demoTerm) [{ ans := .info (textInfo 4 1 0 1) }, { ans := .ok },
      { haps := [.input .other], ans := .ok }] (textOut 4 1 1 0 1)).any
        (fun o' => o'.glyph.cell ⟨1, 0⟩ == .narrow [' '] ()) = true ∧
    (cmdRun (winClearToScreenEnd demoTerm) [{ ans := .info (textInfo 4 0 0 1) }, { ans := .ok },
      { ans := .ok }] (textOut 4 1 0 0 1)).any
        (fun o' => o'.glyph.cell ⟨1, 0⟩ == .narrow [' '] ()) = true ∧
    (cmdRun (winMoveUp 1) [{ ans := .info (textInfo 4 1 0 1) }, { ans := .ok }]
      (textOut 4 1 1 0 1)).any (fun o' => o'.glyph.cur == some ⟨0, 0⟩) = true ∧
    (cmdRun (winMoveDown 7) [{ ans := .info (textInfo 4 1 0 1) }, { ans := .ok }]
      (textOut 4 1 1 0 1)).any (fun o' => o'.glyph.cur == some ⟨3, 0⟩) = true ∧
    (cmdRun (winMoveRight 1) [{ ans := .info (textInfo 4 1 0 1) }, { ans := .ok }]
      (textOut 4 1 1 0 1)).any (fun o' => o'.glyph.cur == some ⟨1, 1⟩) = true ∧
    (cmdRun (winMoveCursor ⟨2, 1⟩) [{ ans := .ok }]
      (textOut 4 1 1 0 1)).any (fun o' => o'.glyph.cur == some ⟨2, 1⟩) = true ∧
    (cmdRun winFirstColumn [{ ans := .info (textInfo 4 1 0 1) }, { ans := .ok }]
      (textOut 4 1 1 0 1)).any (fun o' => o'.glyph.cur == some ⟨1, 0⟩) = true ∧
    (cmdRun (winCursorMode .invisible) [{ ans := .ok }]
      (textOut 4 1 1 0 1)).any (fun o' => o'.shape == (1, false)) = true := by
  refine ⟨by unfold BufSize; decide, by unfold RectIn; decide, ?_, ?_, ?_, ?_, ?_, ?_, ?_, ?_⟩ <;>
    decide +kernel

/-- `clear_screen` with the window as high as the buffer. -/
example : (textOut 4 1 1 0 3).height = (textOut 4 1 1 0 3).glyph.size.lines ∧
    (cmdRun (winClearScreen demoTerm) [{ ans := .info (textInfo 4 1 0 3) }, { ans := .ok },
      { ans := .ok }, { ans := .ok }] (textOut 4 1 1 0 3)).any
        (fun o' => o'.glyph.cell ⟨1, 0⟩ == .narrow [' '] () && o'.glyph.cur == some ⟨0, 0⟩) = true :=
  ⟨by decide, by decide +kernel⟩

/-- And with a smaller window and room below it: the hypotheses of `C54_clear_screen_partial` and
`C54_clear_screen_preserves`. -/
example : (textOut 6 1 1 0 1).height ≠ (textOut 6 1 1 0 1).glyph.size.lines ∧
    ((1 : Nat) : Int) + 1 ≤ 2 * ((textOut 6 1 1 0 1).glyph.size.lines - (textOut 6 1 1 0 1).height) ∧
    ((1 : Nat) : Int) + 1 + (textOut 6 1 1 0 1).height ≤ (textOut 6 1 1 0 1).glyph.size.lines ∧
    (∀ q, (⟨1, 0⟩ : Cursor).line < q.line → (textOut 6 1 1 0 1).Blank q) ∧
    (cmdRun (winClearScreen demoTerm) [{ ans := .info (textInfo 6 1 0 1) }, { ans := .ok },
      { ans := .ok }] (textOut 6 1 1 0 1)).any
        (fun o' => o'.window == ⟨0, 2, 1, 3⟩ && o'.glyph.cur == some ⟨2, 0⟩) = true := by
  refine ⟨by decide, by decide, by decide, fun q hq => ?_, by decide +kernel⟩
  refine if_neg ?_
  rintro rfl
  exact absurd hq (by decide)

end Mortal
