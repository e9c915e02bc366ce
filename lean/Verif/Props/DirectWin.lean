import Verif.Lemmas.DirectWin
import Verif.Props.Direct

/-!
# Output written directly to a Windows console (C58)
-/

namespace Mortal
open Spec

/-- What a console was told by two pieces of a program. -/
theorem displays_trans {u : UEnv} {k : Nat} {t : WTerm} {crlf : Bool} {s s1 s2 : WinSt} {c c1 : Con}
    {o o1 : OutBuf} {D1 D2 : List WEv} {p2 : Page} (e1 : c.play u k D1 = some c1)
    (b1 : OnlyBuffer s.outH c c1 o o1) (h1 : s1.outH = s.outH)
    (h : Displays u k t crlf s1 s2 c1 o1 D2 p2) : Displays u k t crlf s s2 c o (D1 ++ D2) p2 := by
  obtain ⟨c2, o2, e2, b2, h2, h3⟩ := h
  refine ⟨c2, o2, by rw [con_play_append, e1]; exact e2, ?_, h2.trans h1, h3⟩
  obtain ⟨x1, x2, x3, x4, x5, x6⟩ := b1
  rw [h1] at b2
  obtain ⟨y1, y2, y3, y4, y5, y6⟩ := b2
  exact ⟨y1.trans x1, y2.trans x2, y3.trans x3, fun j hj => (y4 j hj).trans (x4 j hj), x5, y6⟩

theorem win_run {u : UEnv} (hsp : u.w ' ' = 1) (k : Nat) (t : WTerm) (crlf : Bool) :
    ∀ (ops : List TOp) (s s' : WinSt) (c : Con) (o : OutBuf) (p p' : Page) (tr : List (TOp × Bool))
      (D : List WEv),
    c.outs s.outH = some o → OnBuf t crlf s.theme o p → traceWin t ops s = some (tr, s') →
    (∀ op, (op, false) ∈ tr → op.IsCursor) → s'.log = s.log ++ D → c.Runs u k D →
    p.run u crlf tr = some p' → Displays u k t crlf s s' c o D p' := by
  intro ops
  induction ops with
  | nil =>
    intro s s' c o p p' tr D ho hb ht _ hl _ hp
    simp only [traceWin, Option.some.injEq, Prod.mk.injEq] at ht
    obtain ⟨rfl, rfl⟩ := ht
    cases hp
    have : D = [] := by simpa using hl
    subst this
    exact ⟨c, o, rfl, ⟨rfl, rfl, rfl, fun _ _ => rfl, ho, ho⟩, rfl, hb⟩
  | cons op ops ih =>
    intro s s' c o p p' tr D ho hb ht hf hl hr hp
    simp only [traceWin] at ht
    have hg := grows_win t op s
    have go : ∀ {s1 : WinSt} {D1 : List WEv} {p1 : Page} {tr1 : List (TOp × Bool)},
        s1.log = s.log ++ D1 → (c.Runs u k D1 → Displays u k t crlf s s1 c o D1 p1) →
        traceWin t ops s1 = some (tr1, s') → (∀ op, (op, false) ∈ tr1 → op.IsCursor) →
        p1.run u crlf tr1 = some p' → Displays u k t crlf s s' c o D p' := by
      intro s1 D1 p1 tr1 e1 hstep h1 hf1 hp1
      obtain ⟨D2, e2⟩ := traceWin_grows t ops _ _ _ h1
      have hD : D = D1 ++ D2 := by
        rw [e2, e1, List.append_assoc] at hl
        exact (List.append_cancel_left hl).symm
      subst hD
      obtain ⟨r1, r2⟩ := con_runs_append hr
      obtain ⟨c1, o1, x1, x2, x3, x4⟩ := hstep r1
      refine displays_trans x1 x2 x3 (ih s1 s' c1 o1 p1 p' tr1 D2 ?_ x4 h1 hf1 e2 (r2 c1 x1) hp1)
      rw [x3]; exact x2.2.2.2.2.2
    cases hw : op.win t s with
    | stop x => rw [hw] at ht; cases ht
    | ok a s1 =>
      rw [hw] at ht
      simp only [Option.map_eq_some_iff, Prod.mk.injEq] at ht
      obtain ⟨⟨tr1, s2⟩, h1, rfl, rfl⟩ := ht
      simp only [Page.run, Option.bind_eq_some_iff] at hp
      obtain ⟨p1, hp1, hp2⟩ := hp
      obtain ⟨D1, e1⟩ := hg.1 a s1 hw
      exact go e1 (fun r => win_step hsp ho hb hw e1 r hp1) h1
        (fun op h => hf op (List.mem_cons_of_mem _ h)) hp2
    | err x s1 =>
      rw [hw] at ht
      simp only [Option.map_eq_some_iff, Prod.mk.injEq] at ht
      obtain ⟨⟨tr1, s2⟩, h1, rfl, rfl⟩ := ht
      simp only [Page.run] at hp
      obtain ⟨D1, e1⟩ := hg.2 x s1 hw
      exact go e1 (fun r => win_failed (hf op (List.mem_cons_self ..)) ho hb hw e1 r) h1
        (fun op h => hf op (List.mem_cons_of_mem _ h)) hp

/-- C58. A program makes any calls on a Windows console whose buffer is all visible and interprets
line ends; calls that move the cursor or change its form may fail. If the buffer first shows `p`
then, whatever else happens on the console meanwhile, it shows in the end the page the calls asked
for: characters as their themes ask for, erased cells, the cursor and whether it is visible. Nothing
else on the console has changed. -/
theorem C58_shown (u : UEnv) (hsp : u.w ' ' = 1) (k : Nat) (t : WTerm) (ops : List TOp)
    (s s' : WinSt) (c : Con) (o : OutBuf) (p p' : Page) (tr : List (TOp × Bool)) (D : List WEv)
    (ho : c.outs s.outH = some o) (hz : BufSize o.glyph.size) (hw : o.Whole)
    (hmode : o.mode.getLsbD 0 = true) (hplain : s.theme = plainTheme)
    (hfresh : p.Fresh) (hshow : o.Presents t p)
    (hrun : traceWin t ops s = some (tr, s')) (hok : ∀ op, (op, false) ∈ tr → op.IsCursor)
    (hlog : s'.log = s.log ++ D) (hcon : c.Runs u k D)
    (hpage : p.run u (!o.mode.getLsbD 3) tr = some p') :
    ∃ c' o', c.play u k D = some c' ∧ OnlyBuffer s.outH c c' o o' ∧ o'.Presents t p' := by
  have hb : OnBuf t (!o.mode.getLsbD 3) s.theme o p :=
    { near := ⟨hshow.size, hshow.cell, hshow.cur, hshow.last, rfl⟩
      tint := ⟨hshow.narrow, hshow.wide⟩
      visible := hshow.visible
      pend := hshow.pend
      whole := hw
      size := hz
      proc := hmode
      ret := rfl
      word := look_inj _ _ (by
        rw [themeWord_look, hplain]
        have := hshow.ink
        rw [hfresh.1] at this
        exact this)
      ink := by rw [hplain]; exact hfresh.1
      sound := hfresh.2 }
  obtain ⟨c', o', h1, h2, -, h3⟩ := win_run hsp k t _ ops s s' c o p p' tr D ho hb hrun hok hlog hcon
    hpage
  exact ⟨c', o', h1, h2,
    { size := h3.zsize
      cell := fun q hq => h3.zcell hq
      narrow := h3.tint.narrow
      wide := h3.tint.wide
      cur := h3.near.cur
      last := h3.near.last
      ink := h3.looks
      visible := h3.visible
      pend := h3.pend }⟩

theorem tcell_map_map {A B C : Type} (f : A → B) (g : B → C) (x : TCell A) :
    (x.map f).map g = x.map fun a => g (f a) := by cases x <;> rfl

/-- C58. The same calls, with the same results, made on a Unix terminal and on a Windows console
that show the same page: in the end both show the same characters in the same cells, have the cursor
in the same place, and both show it or both do not. -/
theorem C58_same (env : WEnv) (hdb : DirectDB env) (u : UEnv) (hsp : u.w ' ' = 1)
    (fill : DevAttrs → DevAttrs) (k : Nat) (t : WTerm) (ops : List TOp) (tr : List (TOp × Bool))
    (p p' : Page) (hfresh : p.Fresh)
    -- Unix
    (os : List WriteRes) (e : Emu) (w : WS) (hunix : e.Shows fill p)
    (hu : traceT env ops (WS.new os) = some (tr, w))
    -- Windows
    (s s' : WinSt) (c : Con) (o : OutBuf) (D : List WEv)
    (ho : c.outs s.outH = some o) (hz : BufSize o.glyph.size) (hw : o.Whole)
    (hmode : o.mode.getLsbD 0 = true) (hplain : s.theme = plainTheme) (hwin : o.Presents t p)
    (hrun : traceWin t ops s = some (tr, s')) (hok : ∀ op, (op, false) ∈ tr → op.IsCursor)
    (hlog : s'.log = s.log ++ D) (hcon : c.Runs u k D)
    (hpage : p.run u (!o.mode.getLsbD 3) tr = some p') :
    ∃ e' c' o', e.play u (!o.mode.getLsbD 3) fill w.log = some e' ∧ c.play u k D = some c' ∧
      OnlyBuffer s.outH c c' o o' ∧ e'.t.size = o'.glyph.size ∧
      (∀ q, InBounds q o'.glyph.size → (e'.t.cell q).map (fun _ => ()) = o'.glyph.cell q) ∧
      (∀ x, e'.t.cur = some x → o'.glyph.cur = some x) ∧ e'.visible = o'.shape.2 := by
  obtain ⟨z1, z2, z3, z4⟩ := id hz
  rw [hwin.size] at z1 z2 z3 z4
  obtain ⟨e', e1, e2, e3, e4, -, -, e5⟩ := C57_shown env hdb u _ fill ops os e p p' tr w (by omega)
    (by omega) hfresh hunix hu hpage
  obtain ⟨c', o', c1, c2, c3⟩ := C58_shown u hsp k t ops s s' c o p p' tr D ho hz hw hmode hplain
    hfresh hwin hrun hok hlog hcon hpage
  refine ⟨e', c', o', e1, c1, c2, e2.trans c3.size.symm, fun q hq => ?_, fun x hx => ?_,
    e5.trans c3.visible.symm⟩
  · rw [c3.cell q (by rw [← c3.size]; exact hq), e3, tcell_map_map]
  · exact c3.cur x (by rw [← e4]; exact hx)

/-! ### Examples -/

/-- An empty buffer of 3 by 6, all visible. -/
def pageOut : OutBuf where
  glyph := { size := ⟨3, 6⟩, cell := fun _ => .narrow [' '] (), cur := some ⟨0, 0⟩, last := none,
             attrs := () }
  attr := fun _ => 7
  word := 7
  window := ⟨0, 0, 5, 2⟩
  mode := 3
  shape := (25, true)

/-- It shows an empty page. -/
example : pageOut.Presents demoTerm blankPage ∧ pageOut.Whole ∧ BufSize pageOut.glyph.size ∧
    pageOut.mode.getLsbD 0 = true ∧ demoEnv.w ' ' = 1 :=
  ⟨⟨rfl, fun _ _ => rfl, by rintro q x i - ⟨⟩; rfl, by rintro q x i - ⟨⟩, fun _ h => h, nofun,
    by show lookOf _ = wantedLook _ _ _ _; decide, rfl, rfl⟩, by unfold OutBuf.Whole; decide,
    by unfold BufSize; decide, by decide, by decide⟩

/-- What the console tells when the cursor is at line `y` and column `x`. -/
def pageInfo (y x : Int) (a : BitVec 16) : Info where
  size := ⟨6, 3⟩
  cursor := ⟨x, y⟩
  attrs := a
  window := ⟨0, 0, 5, 2⟩

/-- A two-column character in red, a styled character, moves, erasing the rest of a line, and a hidden
cursor. -/
def winCalls : List TOp :=
  [.fg (some .red), .moveTo ⟨0, 0⟩, .write ['世', 'a'], .styled ⟨none, none, .REVERSE⟩ ['b'],
   .move .left 1, .clearToLineEnd, .cursorMode .invisible, .flush]

/-- The answers to them; a key is pressed meanwhile. -/
def winAnswers : List ConStep :=
  [⟨[], .ok⟩, ⟨[.input .other], .ok⟩, ⟨[], .wrote 2⟩, ⟨[], .ok⟩, ⟨[], .wrote 1⟩, ⟨[], .ok⟩,
   ⟨[], .info (pageInfo 0 4 7)⟩, ⟨[], .ok⟩, ⟨[], .info (pageInfo 0 3 7)⟩, ⟨[], .ok⟩, ⟨[], .ok⟩,
   ⟨[], .ok⟩]

/-- The calls on a console with that buffer. -/
def winTrace (ops : List TOp) (os : List ConStep) :
    Option (List (TOp × Bool) × OutBuf) :=
  (traceWin demoTerm ops (demoSt os)).bind fun x =>
    ((checkPlay demoEnv 1 x.2.log (textCon pageOut)).bind fun c => c.outs 2).map fun o => (x.1, o)

/-- All succeed, this is a possible behaviour of the console, and the page exists. -/
example : ((winTrace winCalls winAnswers).map fun x => x.1.all Prod.snd) = some true ∧
    ((winTrace winCalls winAnswers).bind fun x => blankPage.run demoEnv true x.1).isSome := by
  decide +kernel

/-- The same calls succeed on Unix. -/
example : ((traceT demoDB winCalls (WS.new [.all])).map fun x => x.1.all Prod.snd) = some true := by
  decide +kernel

/-- The first line in the end; red is 4, and 0x70 the reverse of 7. -/
example : ((winTrace winCalls winAnswers).map fun x => ((List.range 4).map fun i =>
      (x.2.glyph.cell ⟨0, i⟩, x.2.attr ⟨0, i⟩), x.2.glyph.cur, x.2.shape.2)) =
    some ([(.left ['世'] (), 4), (.right, 4), (.narrow ['a'] (), 4), (.narrow [' '] (), 7)],
      some ⟨0, 3⟩, false) := by decide +kernel

/-- Line feeds that scroll, and a cursor call that fails. -/
example : ((winTrace [.styled ⟨none, none, .REVERSE⟩ ['a', '\n', '\n', '\n', 'b'], .moveTo ⟨7, 0⟩, .write ['c']]
      [⟨[], .ok⟩, ⟨[], .wrote 5⟩, ⟨[], .ok⟩, ⟨[], .fail⟩, ⟨[], .wrote 1⟩]).map fun x =>
        (x.1.map Prod.snd, x.2.glyph.cur, x.2.glyph.cell ⟨2, 0⟩, x.2.attr ⟨2, 0⟩)) =
    some ([true, false, true], some ⟨2, 2⟩, .narrow ['b'] (), 0x70) := by
  decide +kernel

end Mortal
