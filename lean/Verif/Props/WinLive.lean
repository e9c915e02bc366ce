import Verif.Lemmas.WinLiveCheck
import Verif.Lemmas.WinTotal
import Verif.Props.WinFail

/-!
# C77: a screen on a Windows console that changes while the program runs

The visible buffer may become another one between any two calls of the screen, and between any two
calls of the console that a refresh makes. The program learns of
it when it reads the size record, and may refresh any number of times before. What a call does to a
console of which it has the wrong idea is left open where the console's documentation leaves it open
(`Con.May`).
-/

namespace Mortal
open Spec

/-- **C77**, for sessions that draw only one-column characters: drawing calls, refreshes that return
`Ok` or fail, changes of the console, also in the middle of refreshes, size records and other events
follow in any number and order. If the last size record read since the console last changed (or a
refresh last failed) told the size that
the console then had, or if there was neither change nor failure, a final refresh that returns `Ok`
leaves the console showing exactly what was drawn, with the cursor where it should be and the default
attributes in effect, no matter what the screen did while its knowledge was out of date. -/
theorem C77_live {u : UEnv} (hT : TableOk u) {t : WTerm} {cfg : PrepareConfig} {z : Size}
    (hz : ConSize z) {x y : WSess} (hx : WOpened u t cfg z x)
    (hwin : ∀ o, x.c.outs x.s.w.outH = some o → WholeWindow o) (steps : List LiveStep)
    (hs : ∀ st ∈ steps, st.Narrow u) {current : Prop}
    (h : LivePath u t (steps ++ [.refresh]) x True y current) :
    ∃ b, runOps u (steps.filterMap LiveStep.asOp) (Buf.new z) = some b ∧
      (current → ∃ o, y.c.outs y.s.w.outH = some o ∧ y.c.active = y.s.w.outH ∧
        ConShows u t.defAttrs o b ∧ o.glyph.cur = some (target b) ∧ o.word = t.defAttrs) := by
  obtain ⟨b, h1, h2, h3⟩ := live_end hT hz hx hwin True (Or.inr trivial) (fun _ => hs) h
  refine ⟨b, h1, fun hc => ?_⟩
  obtain ⟨o, g1, g2, g3, g4, g5⟩ := h3 hc
  exact ⟨o, g1, g2, g3, g5 (noWide_noRight (h2 trivial) _), g4⟩

/-- **C77**, for sessions with two-column characters in which every call is safe, as in
`C47_wide_partial`. -/
theorem C77_live_wide {u : UEnv} (hT : TableOk u) {t : WTerm} {cfg : PrepareConfig} {z : Size}
    (hz : ConSize z) {x y : WSess} (hx : WOpened u t cfg z x)
    (hwin : ∀ o, x.c.outs x.s.w.outH = some o → WholeWindow o) (steps : List LiveStep)
    (hs : LiveWideRun u t x True (steps ++ [.refresh])) {current : Prop}
    (h : LivePath u t (steps ++ [.refresh]) x True y current) :
    ∃ b, runOps u (steps.filterMap LiveStep.asOp) (Buf.new z) = some b ∧
      (current → ∃ o, y.c.outs y.s.w.outH = some o ∧ y.c.active = y.s.w.outH ∧
        ConShows u t.defAttrs o b ∧ (¬ RightHalf u b (target b) → o.glyph.cur = some (target b)) ∧
        o.word = t.defAttrs) := by
  obtain ⟨b, h1, -, h3⟩ := live_end hT hz hx hwin False (Or.inl hs) (fun h => h.elim) h
  refine ⟨b, h1, fun hc => ?_⟩
  obtain ⟨o, g1, g2, g3, g4, g5⟩ := h3 hc
  exact ⟨o, g1, g2, g3, g5, g4⟩

/-- **C77.** Whatever the console does, the screen is at every point about to show what the drawing
calls and size records of the session produce: its size, its cells and its cursor are not affected by
the refreshes, also not by those that failed or drew for the wrong size. -/
theorem C77_buffer {u : UEnv} (hT : TableOk u) {t : WTerm} {cfg : PrepareConfig} {z : Size}
    (hz : ConSize z) {x y : WSess} (hx : WOpened u t cfg z x)
    (hwin : ∀ o, x.c.outs x.s.w.outH = some o → WholeWindow o) (steps : List LiveStep)
    (hs : ∀ st ∈ steps, st.Narrow u) {current : Prop} (h : LivePath u t steps x True y current) :
    ∃ b, runOps u (steps.filterMap LiveStep.asOp) (Buf.new z) = some b ∧
      y.s.buf.size = b.size ∧ (∀ p, cellAt y.s.buf p = cellAt b p) ∧ target y.s.buf = target b := by
  obtain ⟨i0, hb0⟩ := live_opened hT hz hx hwin (N := True)
  obtain ⟨-, b, r1, r2⟩ := wliveInv_run hT steps x y _ _ (Buf.new z) i0 (by rw [hb0]; rfl)
    (Or.inr trivial) (fun _ => hs) h
  exact ⟨b, r1, by rw [r2]; rfl, fun p => by rw [r2]; rfl, by rw [r2]; rfl⟩

/-- **C77.** At every point of such a session a refresh returns, with or without an error, unless it
waits for the console: it neither panics nor goes on forever by itself, whatever the console answers,
provided that what it says of its buffer, if it is asked, is true of some buffer. -/
theorem C77_returns {u : UEnv} (hT : TableOk u) {t : WTerm} {cfg : PrepareConfig} {z : Size}
    (hz : ConSize z) {x y : WSess} (hx : WOpened u t cfg z x)
    (hwin : ∀ o, x.c.outs x.s.w.outH = some o → WholeWindow o) (steps : List LiveStep)
    (hs : (∀ st ∈ steps, st.Narrow u) ∨ LiveWideRun u t x True steps) {current : Prop}
    (h : LivePath u t steps x True y current)
    (hi : ∀ st l i, y.s.w.os = st :: l → st.ans = .info i →
      ∃ o : OutBuf, o.Tells i ∧ BufSize o.glyph.size ∧ RectIn o.window o.glyph.size) :
    ∀ w, wsRefresh u t y.s = .stop w → w = .blocked := by
  refine returns_refresh u t ?_ hi
  obtain ⟨i0, hb0⟩ := live_opened hT hz hx hwin (N := ∀ st ∈ steps, st.Narrow u)
  obtain ⟨⟨⟨_, _, i1, -⟩, -⟩, -⟩ := wliveInv_run hT steps x y _ _ (Buf.new z) i0 (by rw [hb0]; rfl)
    hs.symm id h
  exact i1.grid

/-! ## Reading events is one of the steps -/

/-- **C77.** Reading an event that is not a resize, or none, is a step of the session. -/
theorem C77_read_other {u : UEnv} {t : WTerm} {x y : WSess} {timeout : Option Duration}
    {r : Option Event} {D : List WEv} (h : wsReadEvent t timeout x.s = .ok r y.s)
    (hl : y.s.w.log = x.s.w.log ++ D) (hr : x.c.Lives u t.inH D y.c)
    (hn : ∀ z, r ≠ some (.resize z)) (f : Prop) : LivePath u t [.other] x f y f := by
  have hr' := lives_runs _ _ _ hr
  refine ⟨y, ?_, rfl, rfl⟩
  have h0 := h
  unfold wsReadEvent at h
  obtain ⟨r', s1, h1, h2⟩ := sm_bind_ok h
  obtain ⟨g1, g2⟩ := onT_ok h1
  have hend : r' = r ∧ s1 = y.s := by
    split at h2
    · rename_i z
      obtain ⟨_, s2, -, h3⟩ := sm_bind_ok h2
      have h3 : SRes.ok (some (Event.resize z)) s2 = .ok r y.s := h3
      cases h3
      exact absurd rfl (hn z)
    · have h2 : SRes.ok r' s1 = .ok r y.s := h2
      cases h2; exact ⟨rfl, rfl⟩
  obtain ⟨rfl, rfl⟩ := hend
  obtain ⟨c', p1, -⟩ := (does_readEvent (u := u) x.c x.s.w t timeout).ok _ _
    (WQuiet.refl _ _) _ _ D g1 hl hr'
  have hc := lives_play _ _ _ _ hr p1
  exact C47_read_other h0 hl hr' (by rw [p1, hc]) hn

/-- **C77.** Reading a resize event is a step of the session, whether or not the console still has
the size that the event tells. -/
theorem C77_read_resize {u : UEnv} {t : WTerm} {x y : WSess} {timeout : Option Duration} {z : Size}
    {D : List WEv} (h : wsReadEvent t timeout x.s = .ok (some (.resize z)) y.s)
    (hl : y.s.w.log = x.s.w.log ++ D) (hr : x.c.Lives u t.inH D y.c) (f : Prop) :
    LivePath u t [.reported z, .other] x f y
      (∃ o, x.c.outs x.s.w.outH = some o ∧ o.glyph.size = z) := by
  unfold wsReadEvent at h
  obtain ⟨r', s1, h1, h2⟩ := sm_bind_ok h
  obtain ⟨g1, g2⟩ := onT_ok h1
  split at h2
  · rename_i z'
    obtain ⟨_, s2, h3, h4⟩ := sm_bind_ok h2
    have h4 : SRes.ok (some (Event.resize z')) s2 = .ok (some (.resize z)) y.s := h4
    cases h4
    obtain ⟨u1, u2⟩ := wsUpdateSize_ok h3
    rw [g2] at u1
    rw [u2] at hl
    obtain ⟨c', p1, ⟨q, rfl⟩, k2, k3, -⟩ := (does_readEvent (u := u) _ x.s.w t timeout).ok _ _
      (WQuiet.refl _ _) _ _ D g1 hl (lives_runs _ _ _ hr)
    have hc := lives_play _ _ _ _ hr p1
    refine ⟨⟨{ y.s.toSData with w := x.s.w }, x.c⟩, ⟨?_, rfl⟩, y, ⟨rfl, ?_, ?_, ?_, ?_⟩, rfl, rfl⟩
    · unfold wsUpdateSize
      rw [sm_bind, sm_get]
      dsimp only
      rw [u1, sm_bind, sm_ofPanics_some]
      rfl
    · rw [u2]; exact k2
    · rw [u2]; exact k3
    · rw [hc]
    · rw [hc]
  · rename_i hne
    have h2 : SRes.ok r' s1 = .ok (some (.resize z)) y.s := h2
    cases h2
    exact absurd rfl (hne z)

/-- **C77.** Reading raw records is one of the steps too: the last size record among them is the one
that counts. -/
theorem C77_read_raw_event {u : UEnv} {t : WTerm} {x y : WSess} {len : Nat} {timeout : Option Duration}
    {r : Option Event} {l : List InRec} {D : List WEv}
    (h : wsReadRawEvent t len timeout x.s = .ok (r, l) y.s)
    (hl : y.s.w.log = x.s.w.log ++ D) (hr : x.c.Lives u t.inH D y.c) (f : Prop) :
    ((∀ v, .size v ∉ l) ∧ LivePath u t [.other] x f y f) ∨
    ∃ pre z post, l = pre ++ .size z :: post ∧ (∀ v, .size v ∉ post) ∧
      LivePath u t [.reported (coordToSize z), .other] x f y
        (∃ o, x.c.outs x.s.w.outH = some o ∧ o.glyph.size = coordToSize z) := by
  unfold wsReadRawEvent at h
  obtain ⟨⟨o, l'⟩, s1, h1, h⟩ := sm_bind_ok h
  obtain ⟨g1, g2⟩ := onT_ok h1
  have hq : ∀ D, s1.w.log = x.s.w.log ++ D → x.c.Lives u t.inH D y.c →
      (∃ q, y.c = { x.c with queue := q }) ∧ s1.w.outH = x.s.w.outH ∧ s1.w.theme = x.s.w.theme := by
    intro D hl hr
    obtain ⟨c', p1, ⟨q, rfl⟩, k2, k3, -⟩ := (does_readRawEvent (u := u) _ x.s.w t len timeout).ok _ _
      (WQuiet.refl _ _) _ _ D g1 hl (lives_runs _ _ _ hr)
    exact ⟨⟨q, lives_play _ _ _ _ hr p1⟩, k2, k3⟩
  have hother : s1 = y.s → LivePath u t [.other] x f y f := by
    rintro rfl
    obtain ⟨⟨q, hc⟩, k2, k3⟩ := hq D hl hr
    exact ⟨y, ⟨g2, k2, k3, by rw [hc], by rw [hc]⟩, rfl, rfl⟩
  rcases winReadRawEvent_ok g1 with ⟨rfl, rfl⟩ | ⟨sig, rfl, rfl⟩ | ⟨rfl, -, -⟩
  · cases h
    exact Or.inl ⟨fun v => List.not_mem_nil, hother rfl⟩
  · cases h
    exact Or.inl ⟨fun v => List.not_mem_nil, hother rfl⟩
  · dsimp only at h
    rcases findSome_last (l := l') with ⟨k1, k2⟩ | ⟨a, c, b, rfl, k2, k3⟩
    · rw [k1] at h
      cases h
      exact Or.inl ⟨k2, hother rfl⟩
    · rw [k3] at h
      obtain ⟨⟨⟩, s2, h2, h⟩ := sm_bind_ok h
      cases h
      obtain ⟨u1, u2⟩ := wsUpdateSize_ok h2
      rw [g2] at u1
      rw [u2] at hl
      obtain ⟨⟨q, hc⟩, m2, m3⟩ := hq D hl hr
      refine Or.inr ⟨a, c, b, rfl, k2, ⟨{ y.s.toSData with w := x.s.w }, x.c⟩, ⟨?_, rfl⟩, y,
        ⟨rfl, ?_, ?_, ?_, ?_⟩, rfl, rfl⟩
      · unfold wsUpdateSize
        rw [sm_bind, sm_get]
        dsimp only
        show (SM.ofPanics (x.s.toSData.updateSize ⟨shortToUsize c.y, shortToUsize c.x⟩) >>= _) _ = _
        rw [u1, sm_bind, sm_ofPanics_some]
        rfl
      · rw [u2]; exact m2
      · rw [u2]; exact m3
      · rw [hc]
      · rw [hc]

/-! ## Examples -/

/-- What the console of the examples becomes: it has one line less and shows garbage. -/
def liveOut : OutBuf :=
  { demoOut with
    glyph := { demoOut.glyph with size := ⟨1, 3⟩, cell := fun _ => .torn }
    attr := fun _ => 0x42
    window := ⟨0, 0, 2, 0⟩ }

/-- A letter in the second line; the console loses that line; a refresh fails on it; an old size
record and a new one are read; another letter. -/
def liveOps : List LiveStep :=
  [.draw (.writeAt ⟨1, 0⟩ ['a']), .changed liveOut, .failed, .reported ⟨2, 3⟩, .reported ⟨1, 3⟩,
   .draw (.writeAt ⟨0, 1⟩ ['d'])]

/-- The answers to the calls of the refreshes. -/
def liveOs : List ConStep :=
  [⟨[], .fail⟩, ⟨[], .info ⟨⟨3, 1⟩, ⟨0, 0⟩, 7, ⟨0, 0, 2, 0⟩⟩⟩, ⟨[.input wakeRecord], .ok⟩, ⟨[], .ok⟩,
   ⟨[], .ok⟩, ⟨[], .wrote 1⟩, ⟨[], .wrote 1⟩, ⟨[], .wrote 1⟩, ⟨[], .ok⟩]

/-- The screen after them. -/
def liveEnd : WSess :=
  ((liveW demoEnv demoTerm (liveOps ++ [.refresh]) (showOpen liveOs) true).getD
    (showOpen [], false)).1

theorem showOpen_whole (os : List ConStep) :
    ∀ o, (showOpen os).c.outs (showOpen os).s.w.outH = some o → WholeWindow o := by
  intro o ho
  cases ho
  exact ⟨rfl, rfl, rfl⟩

/-- Non-trivial case: the session meets the conditions and runs to its end; the screen's knowledge is
current there, and the garbage is gone. -/
example : WOpened demoEnv demoTerm (winCfg .new false false) ⟨2, 3⟩ (showOpen liveOs) ∧
    (∀ st ∈ liveOps, st.Narrow demoEnv) ∧
    LivePath demoEnv demoTerm (liveOps ++ [.refresh]) (showOpen liveOs) (true = true) liveEnd
      (true = true) ∧
    seen [⟨0, 0⟩, ⟨0, 1⟩, ⟨0, 2⟩] liveEnd =
      some ([(.narrow [' '] (), 7), (.narrow ['d'] (), 7), (.narrow [' '] (), 7)],
        some ⟨0, 2⟩) := by
  refine ⟨showOpen_opened _, ?_, liveW_run (showOpen [], false) (by decide +kernel), by decide +kernel⟩
  intro st hst
  simp only [liveOps, List.mem_cons, List.not_mem_nil, or_false] at hst
  rcases hst with rfl | rfl | rfl | rfl | rfl | rfl
  · exact ⟨nofun, by decide, by unfold ThinMarks; decide⟩
  · exact ⟨by unfold ConSize GoodSize; decide, rfl, rfl, rfl⟩
  · trivial
  · show ConSize _
    unfold ConSize GoodSize; decide
  · show ConSize _
    unfold ConSize GoodSize; decide
  · exact ⟨nofun, by decide, by unfold ThinMarks; decide⟩

/-- Non-trivial case with a two-column character: the console changes, the size record is read. -/
theorem wlive_wide_case :
    let steps : List LiveStep :=
      [.draw (.writeAt ⟨0, 0⟩ ['世']), .changed liveOut, .reported ⟨1, 3⟩]
    let x := showOpen [⟨[], .info ⟨⟨3, 1⟩, ⟨0, 0⟩, 7, ⟨0, 0, 2, 0⟩⟩⟩, ⟨[], .ok⟩, ⟨[], .ok⟩,
      ⟨[], .ok⟩, ⟨[], .wrote 1⟩, ⟨[], .ok⟩, ⟨[], .wrote 1⟩, ⟨[], .ok⟩]
    LiveWideRun demoEnv demoTerm x True (steps ++ [.refresh]) ∧
    ((liveW demoEnv demoTerm (steps ++ [.refresh]) x true).bind fun r =>
      (seen [⟨0, 0⟩, ⟨0, 1⟩, ⟨0, 2⟩] r.1).map fun v => (v, r.2)) =
      some (([(.left ['世'] (), 7), (.right, 7), (.narrow [' '] (), 7)], some ⟨0, 2⟩), true) := by
  refine ⟨⟨⟨nofun, ⟨by decide, by decide, fun _ _ => trivial⟩, by unfold ThinMarks; decide⟩,
    fun x1 e1 => ⟨⟨by unfold ConSize GoodSize; decide, rfl, rfl, rfl⟩, fun x2 e2 => ⟨⟨by
      unfold ConSize GoodSize; decide, ?_⟩, fun x3 e3 => ⟨fun _ hc => ?_, fun _ _ => trivial⟩⟩⟩⟩,
    by decide +kernel⟩
  · obtain ⟨b, h1, rfl⟩ := e1
    rw [e2.1]
    have h2 : b = ((BufOp.writeAt ⟨0, 0⟩ ['世']).run demoEnv (Buf.new ⟨2, 3⟩)).getD (Buf.new ⟨2, 3⟩) := by
      have h1 : (BufOp.writeAt ⟨0, 0⟩ ['世']).run demoEnv (Buf.new ⟨2, 3⟩) = some b := h1
      rw [h1]; rfl
    subst h2
    refine ⟨by unfold GoodSize; decide, ?_⟩
    rintro ⟨l, c⟩ cell hin hcol hcell
    have hcol : c + 1 = 3 := hcol
    obtain rfl : c = 2 := by omega
    have hl : l < 2 := hin.1
    have hd : cell = Cell.default := by
      have h0 : l = 0 ∨ l = 1 := by omega
      rcases h0 with rfl | rfl
      · exact (Option.some.inj ((show _ = some Cell.default by decide +kernel).symm.trans hcell)).symm
      · exact (Option.some.inj ((show _ = some Cell.default by decide +kernel).symm.trans hcell)).symm
    subst hd
    rintro ⟨ch, rest, h1, h2⟩
    cases h1
    exact absurd h2 (by decide +kernel)
  · obtain ⟨u1, -⟩ := wsUpdateSize_ok e3.1
    unfold SData.updateSize at u1
    cases hb : x2.s.buf.resize ⟨1, 3⟩ with
    | none => rw [hb] at u1; cases u1
    | some b =>
      rw [hb] at u1
      have u1 : _ = x3.s.toSData := Option.some.inj u1
      rw [← u1] at hc
      cases hc

/-- What the console of the next example becomes: it has one line more and shows garbage. -/
def shakenOut : OutBuf :=
  { demoOut with
    glyph := { demoOut.glyph with size := ⟨3, 3⟩, cell := fun _ => .torn }
    attr := fun _ => 0x42
    window := ⟨0, 0, 2, 2⟩ }

/-- The answers to the calls of its refreshes. -/
def shakenOs : List ConStep :=
  [⟨[], .wrote 1⟩, ⟨[], .ok⟩, ⟨[.input (.size ⟨3, 3⟩)], .wrote 1⟩,
   ⟨[], .info ⟨⟨3, 3⟩, ⟨1, 1⟩, 7, ⟨0, 0, 2, 2⟩⟩⟩, ⟨[], .ok⟩, ⟨[], .ok⟩, ⟨[], .ok⟩, ⟨[], .ok⟩,
   ⟨[], .wrote 1⟩, ⟨[], .wrote 1⟩, ⟨[], .wrote 1⟩, ⟨[], .ok⟩, ⟨[], .wrote 1⟩, ⟨[], .wrote 1⟩,
   ⟨[], .wrote 1⟩, ⟨[], .ok⟩, ⟨[], .wrote 1⟩, ⟨[], .wrote 1⟩, ⟨[], .wrote 1⟩, ⟨[], .ok⟩]

/-- Two letters are drawn. -/
def shaken1 : WSess :=
  ((liveW demoEnv demoTerm [.draw (.writeAt ⟨0, 0⟩ ['a']), .draw (.writeAt ⟨1, 0⟩ ['b'])]
    (showOpen shakenOs) true).getD (showOpen [], false)).1

/-- A refresh, after the first call of which the console changes. -/
def shaken2 : WSess := (shakeW demoEnv demoTerm 1 shakenOut shaken1).getD (showOpen [])

/-- The size record is read, and another refresh. -/
def shaken3 : WSess :=
  ((liveW demoEnv demoTerm [.reported ⟨3, 3⟩, .refresh] shaken2 false).getD (showOpen [], false)).1

/-- Non-trivial case with a change in the middle of a refresh: one letter goes to the old buffer, the
other to the new one; then the record is read, and the next refresh repairs the console. -/
example :
    LivePath demoEnv demoTerm ([.draw (.writeAt ⟨0, 0⟩ ['a']), .draw (.writeAt ⟨1, 0⟩ ['b'])] ++
      (.disturbed :: [.reported ⟨3, 3⟩, .refresh])) (showOpen shakenOs) (true = true) shaken3
      (true = true) ∧
    seen [⟨0, 0⟩, ⟨1, 0⟩, ⟨2, 0⟩] shaken2 =
      some ([(.torn, 0x42), (.narrow ['b'] (), 7), (.torn, 0x42)], some ⟨1, 1⟩) ∧
    seen [⟨0, 0⟩, ⟨1, 0⟩, ⟨2, 0⟩] shaken3 =
      some ([(.narrow ['a'] (), 7), (.narrow ['b'] (), 7), (.narrow [' '] (), 7)], some ⟨1, 1⟩) := by
  refine ⟨livePath_join _ _ _ shaken1 _ _ (true = true) _
    (liveW_run (showOpen [], false) (by decide +kernel)) ⟨shaken2, ?_, ?_⟩, by decide +kernel,
    by decide +kernel⟩
  · exact shakeW_sound (o := shakenOut) (n := 1) (by unfold ConSize GoodSize; decide) ⟨rfl, rfl, rfl⟩
      (some_getD _ (by decide +kernel))
  · have h : LivePath demoEnv demoTerm [.reported ⟨3, 3⟩, .refresh] shaken2 (false = true) shaken3
      (true = true) := liveW_run (showOpen [], false) (by decide +kernel)
    rw [show (false = true) = False from propext ⟨fun h => (by cases h), False.elim⟩] at h
    exact h

/-- Non-trivial case of `C77_returns`: the console is about to be asked about its buffer. -/
example : ∃ (y : WSess) (st : ConStep) (l : List ConStep) (i : Info),
    LivePath demoEnv demoTerm liveOps (showOpen liveOs) (true = true) y (true = true) ∧
    y.s.w.os = st :: l ∧ st.ans = .info i ∧ y.s.clear = true ∧
    liveOut.Tells i ∧ BufSize liveOut.glyph.size ∧ RectIn liveOut.window liveOut.glyph.size := by
  refine ⟨_, ⟨[], .info ⟨⟨3, 1⟩, ⟨0, 0⟩, 7, ⟨0, 0, 2, 0⟩⟩⟩, liveOs.drop 2, _,
    liveW_run (showOpen [], false) (by decide +kernel), by decide +kernel, rfl, by decide +kernel,
    tellsB_sound (by decide +kernel), by unfold BufSize; decide, by unfold RectIn; decide⟩

/-- A screen on the changed console, about to read three records, two of them about sizes. -/
def rawStart : WSess where
  s := (showOpen [⟨[], .ok⟩, ⟨[.input (.size ⟨3, 2⟩), .input (.key ⟨true, 65, 65, 0⟩),
      .input (.size ⟨3, 1⟩), .input .other], .ok⟩, ⟨[], .ok⟩,
    ⟨[], .recs [.size ⟨3, 2⟩, .key ⟨true, 65, 65, 0⟩, .size ⟨3, 1⟩]⟩]).s
  c := (showOpen []).c.setOut 3 liveOut

/-- What happens then. -/
def rawLog : List WEv :=
  [.call .atomic .ok, .input (.size ⟨3, 2⟩), .input (.key ⟨true, 65, 65, 0⟩), .input (.size ⟨3, 1⟩),
   .input .other, .call (.wait 1 0xFFFFFFFF) .ok, .call .atomic .ok,
   .call (.readInput 1 3) (.recs [.size ⟨3, 2⟩, .key ⟨true, 65, 65, 0⟩, .size ⟨3, 1⟩])]

/-- Non-trivial case of `C77_read_raw_event`. -/
example : ∃ (r : Option Event) (l : List InRec) (s : WScr) (c : Con),
    wsReadRawEvent demoTerm 3 none rawStart.s = .ok (r, l) s ∧
    s.w.log = rawStart.s.w.log ++ rawLog ∧ rawStart.c.Lives demoEnv 1 rawLog c ∧
    l = [.size ⟨3, 2⟩, .key ⟨true, 65, 65, 0⟩] ++ .size ⟨3, 1⟩ :: [] ∧ s.buf.size = ⟨1, 3⟩ := by
  obtain ⟨h1, h2⟩ := checkPlay_sound _ _ _
    (some_getD (o := checkPlay demoEnv 1 rawLog rawStart.c) (showOpen []).c (by decide +kernel))
  exact ⟨_, _, _, _, rfl, rfl, play_lives _ _ _ h1 h2, rfl, rfl⟩

/-! ## Why the report is needed -/

/-- What the console of the examples becomes: its size stays, it shows garbage. -/
def scrawled : OutBuf := { demoOut with glyph := { demoOut.glyph with cell := fun _ => .narrow ['x'] () } }

/-- The screen after a refresh. -/
def scrawledEnd : WSess :=
  ((liveW demoEnv demoTerm [.changed scrawled, .refresh] (showOpen []) true).getD
    (showOpen [], true)).1

/-- **C77.** Without a report the claim is false: another program writes on the console, which keeps
its size, so that no size record arrives; a refresh returns `Ok` and makes no call at all. -/
theorem C77_report_needed : ∃ (y : WSess) (o : OutBuf),
    WOpened demoEnv demoTerm (winCfg .new false false) ⟨2, 3⟩ (showOpen []) ∧
    (LiveStep.changed scrawled).Narrow demoEnv ∧
    LivePath demoEnv demoTerm [.changed scrawled, .refresh] (showOpen []) True y False ∧
    y.s.w.log = (showOpen []).s.w.log ∧
    y.c.outs y.s.w.outH = some o ∧ o.glyph.cell ⟨0, 0⟩ = .narrow ['x'] () ∧
    cellAt y.s.buf ⟨0, 0⟩ = some Cell.default ∧
    ¬ ConShows demoEnv demoTerm.defAttrs o y.s.buf := by
  have h2 : LivePath demoEnv demoTerm [.changed scrawled, .refresh] (showOpen []) (true = true) scrawledEnd
    (false = true) := liveW_run (showOpen [], true) (by decide +kernel)
  have h3 : ((scrawledEnd.c.outs scrawledEnd.s.w.outH).map fun o => o.glyph.cell ⟨0, 0⟩) =
    some (.narrow ['x'] ()) := by decide +kernel
  have h4 : cellAt scrawledEnd.s.buf ⟨0, 0⟩ = some Cell.default := by decide +kernel
  have h5 : scrawledEnd.s.buf.size = ⟨2, 3⟩ := by decide +kernel
  have h6 : scrawledEnd.s.w.log = (showOpen []).s.w.log := by decide +kernel
  generalize scrawledEnd = y at h2 h3 h4 h5 h6
  rw [Option.map_eq_some_iff] at h3
  obtain ⟨o, h7, h8⟩ := h3
  rw [eq_self_iff_true, show (false = true) = False from propext ⟨fun h => (by cases h), False.elim⟩] at h2
  refine ⟨y, o, showOpen_opened _, ⟨by unfold ConSize GoodSize; decide, rfl, rfl, rfl⟩, h2, h6,
    h7, h8, h4, ?_⟩
  refine not_conShows (l := 0) (by rw [h5]; exact ⟨by decide, by decide⟩) h4 ?_
  intro h
  rw [h8] at h
  exact absurd h (glyphOf_ne (by decide))

end Mortal
