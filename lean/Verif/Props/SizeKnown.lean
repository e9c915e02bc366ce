import Verif.Lemmas.SizeUnknown
import Verif.Props.ScreenSession

/-! # C61: a screen learns of the changes of the window's size -/

namespace Mortal
open Spec

theorem pendingSig_winch {s : US} (h : s.last = 28) : pendingSig s = some .winch := by
  unfold pendingSig
  rw [h]
  rfl

theorem winch_pendingSig {s : US} (h : pendingSig s = some .winch) : s.last = 28 := by
  have := List.find?_some h
  simp only [decide_eq_true_eq] at this
  exact this.symm

/-- **C61 (partial).** A screen is opened, and then, in any order, its methods are called and the window
changes its size, also while a call runs. If the size did not change unseen while the screen was opened
and no read failed with an error of the operating system, then at every moment the screen has the size
of the window, or a change is about to be reported, or the last SIGWINCH was followed by another signal.
Partial: in each of these three cases the screen may never learn the size
(`C61_missed_while_opening`, `C61_superseded`, `C61_lost_by_failure`). -/
theorem C61_size_partial (u : UEnv) (hu : SpaceOk u) (env : REnv) (cfg : PrepareConfig) (scr : ScreenU)
    (s0 s1 s : US) (es : List SizeEv) (rs : List (ScrOp × URet)) (d : SData)
    (h0 : s0.last = 0) (hw : WinchSent s0)
    (h1 : screenNew env cfg s0 = .ok scr s1)
    (hk : scr.data.buf.size = s1.size ∨ pendingSig s1 = some .winch)
    (hp : ∀ ev ∈ es, ev.Public) (h2 : runSize u env es scr.data s1 = some (rs, d, s))
    (hr : ∀ x ∈ rs, Reading x.1 → x.2 ≠ .err .os) :
    d.buf.size = s.size ∨ pendingSig s = some .winch ∨ Superseded 0 s.seen := by
  have ha : Alert 0 s1 := alert_new h0 hw h1 (((C37_open env cfg scr s0 s1 h1).2.2.1 .winch).1 trivial)
  have hs : Heeds 0 scr.data.buf.size s1 := by
    refine ⟨ha, ?_⟩
    rcases hk with hk | hk
    · exact Or.inl hk
    · exact Or.inr (Or.inl (winch_pendingSig hk))
  rcases (size_run hu es hp hs h2 hr).2 with h | h | h
  · exact Or.inl h
  · exact Or.inr (Or.inl (pendingSig_winch h))
  · exact Or.inr (Or.inr h)

/-- **C61 (partial).** The same from any later moment on: after the screen was opened and anything has
happened, also reads that failed, take a moment at which the screen has the size of the window or a change
is about to be reported. From then on, while no read fails with an error of the operating system, the
screen has the size of the window, or a change is about to be reported, or the last SIGWINCH was followed by
another signal, and that signal came after the moment. Partial: as before. -/
theorem C61_size_from_partial (u : UEnv) (hu : SpaceOk u) (env : REnv) (cfg : PrepareConfig) (scr : ScreenU)
    (s0 s1 s s' : US) (es es' : List SizeEv) (rs rs' : List (ScrOp × URet)) (d d' : SData)
    (h0 : s0.last = 0) (hw : WinchSent s0)
    (h1 : screenNew env cfg s0 = .ok scr s1) (h2 : runSize u env es scr.data s1 = some (rs, d, s))
    (hk : d.buf.size = s.size ∨ pendingSig s = some .winch)
    (hp : ∀ ev ∈ es', ev.Public) (h3 : runSize u env es' d s = some (rs', d', s'))
    (hr : ∀ x ∈ rs', Reading x.1 → x.2 ≠ .err .os) :
    d'.buf.size = s'.size ∨ pendingSig s' = some .winch ∨ Superseded s.seen.length s'.seen := by
  have ha : Alert 0 s := alert_run es
    (alert_new h0 hw h1 (((C37_open env cfg scr s0 s1 h1).2.2.1 .winch).1 trivial)) h2
  have hs : Heeds s.seen.length d.buf.size s := by
    refine ⟨⟨ha.record, ha.ours, ha.sent, Nat.le_refl _⟩, ?_⟩
    rcases hk with hk | hk
    · exact Or.inl hk
    · exact Or.inr (Or.inl (winch_pendingSig hk))
  rcases (size_run hu es' hp hs h3 hr).2 with h | h | h
  · exact Or.inl h
  · exact Or.inr (Or.inl (pendingSig_winch h))
  · exact Or.inr (Or.inr h)

/-- **C61.** A screen learns the size from SIGWINCH and from nothing else. When none is about to be reported,
then until the next one no call changes the screen's size, none reports a change, and none is about to be
reported. So a size that was missed stays unknown until the window changes once more. -/
theorem C61_stays_unknown (u : UEnv) (hu : SpaceOk u) (env : REnv) (es : List SizeEv) (d d' : SData)
    (s s' : US) (rs : List (ScrOp × URet)) (x : List Sig) (hn : pendingSig s ≠ some .winch)
    (hp : ∀ ev ∈ es, ev.Public) (h : runSize u env es d s = some (rs, d', s'))
    (hx : s'.seen = s.seen ++ x) (hw : .winch ∉ x) :
    d'.buf.size = d.buf.size ∧ (∀ y ∈ rs, ∀ z, y.2 ≠ .event (some (.resize z))) ∧
      pendingSig s' ≠ some .winch := by
  have hl : s.last ≠ 28 := fun e => hn (pendingSig_winch e)
  obtain ⟨⟨y, a1, a2⟩, b⟩ := ignorant_run hu es hp h
  obtain rfl : y = x := List.append_cancel_left (a1.symm.trans hx)
  rcases b with ⟨z, e, b⟩ | ⟨b1, b2⟩
  · obtain rfl : z = y := List.append_cancel_left (e.symm.trans hx)
    exact (b.elim hw hl).elim
  · exact ⟨b1, b2, fun e => a2 hw hl (winch_pendingSig e)⟩

/-- **C61.** When a change is about to be reported, no complete event is buffered and no other signal
comes first, a read of an event that succeeds reports the window's size, and the screen takes it. -/
theorem C61_next_read (env : REnv) (t : Option Nat) (d d' : SData) (s s' : US) (st : Step)
    (rest : List Step) (r : Option Event) (hb : s.inBuf = [] ∨ Unfinished s.inBuf)
    (hs : s.sched = st :: rest) (hg : latest (handled s.act st.before) (pendingSig s) = some .winch)
    (h : screenReadEvent env t d s = .ok (r, d') s') :
    r = some (.resize s'.size) ∧ d'.buf.size = s'.size := by
  have hr : r = some (.resize s'.size) := by
    obtain ⟨o, s1, h1, h2⟩ := M.bind_ok h
    cases C33_read_resize env t s s1 st rest o hb hs hg h1
    dsimp only at h2
    cases hd : d.updateSize s1.size with
    | none => rw [hd] at h2; cases h2
    | some d2 => rw [hd] at h2; cases h2; rfl
  exact ⟨hr, ((C48_read_event env t d d' s s' r h).1 _ hr).2.1⟩

/-- **C61.** The same for a raw read when nothing is buffered. -/
theorem C61_next_raw (env : REnv) (n : Nat) (t : Option Nat) (d d' : SData) (s s' : US) (st : Step)
    (rest : List Step) (r : InRes) (hb : s.inBuf = [])
    (hs : s.sched = st :: rest) (hg : latest (handled s.act st.before) (pendingSig s) = some .winch)
    (h : screenReadRaw env n t d s = .ok (r, d') s') :
    r = .event (.resize s'.size) ∧ d'.buf.size = s'.size := by
  have hr : r = .event (.resize s'.size) := by
    obtain ⟨o, s1, h1, h2⟩ := M.bind_ok h
    rw [C31_latest_first_raw env n t s st rest .winch hb hs hg] at h1
    cases hh : handleSignal env (Sig.signal .winch)
        { s.advance st rest with seen := s.seen ++ handled s.act st.before, last := 0 } with
    | err e x => rw [hh] at h1; cases h1
    | stop w => rw [hh] at h1; cases h1
    | ok o1 x =>
      cases C33_resize env _ x o1 hh
      rw [hh] at h1
      cases h1
      dsimp only at h2
      cases hd : d.updateSize s1.size with
      | none => rw [hd] at h2; cases h2
      | some d2 => rw [hd] at h2; cases h2; rfl
  exact ⟨hr, ((C48_read_raw env n t d d' s s' r h).1 _ hr).2.1⟩

/-- **C61.** While a change is about to be reported, `wait_event` says at once that there is something. -/
theorem C61_wait (env : REnv) (t : Option Nat) (s : US) (st : Step) (rest : List Step)
    (hs : s.sched = st :: rest) (hg : pendingSig s = some .winch) :
    ∃ s', waitEvent env t s = .ok true s' ∧ s'.waited = s.waited := by
  obtain ⟨s', a, -, b⟩ := C32_already_pending env t s st rest hs (Or.inl (by rw [hg]; simp))
  exact ⟨s', a, b⟩

/-! ## Examples and refutations -/

/-- A screen opened, and a history of it: the screen and the state when it is open, and what follows. -/
def sizeStory (es : List SizeEv) (s0 : US) :
    Option ((ScreenU × US) × List (ScrOp × URet) × SData × US) := do
  let (scr, s1) ← okOf (screenNew demoEnvR demoCfg s0)
  let x ← runSize demoEnv demoEnvR es scr.data s1
  pure ((scr, s1), x)

theorem sizeStory_some {es : List SizeEv} {s0 s1 s : US} {scr : ScreenU} {rs : List (ScrOp × URet)}
    {d : SData} (h : sizeStory es s0 = some ((scr, s1), rs, d, s)) :
    screenNew demoEnvR demoCfg s0 = .ok scr s1 ∧ runSize demoEnv demoEnvR es scr.data s1 = some (rs, d, s) := by
  unfold sizeStory at h
  cases h1 : screenNew demoEnvR demoCfg s0 with
  | err e s => rw [h1] at h; cases h
  | stop w => rw [h1] at h; cases h
  | ok scr s1 =>
    rw [h1] at h
    dsimp only [okOf, Option.bind_eq_bind, Option.bind_some] at h
    cases h2 : runSize demoEnv demoEnvR es scr.data s1 with
    | none => rw [h2] at h; cases h
    | some v => rw [h2] at h; cases h; exact ⟨rfl, h2⟩

/-- A small terminal with a given list of steps. -/
def sizeUS (sched : List Step) : US := { smallUS 0 with sched := sched }

/-- The results of the calls of a history. -/
def resultsOf (rs : List (ScrOp × URet)) : List URet := rs.map (·.2)

/-- C61: a history with a change between calls, one during a call, and a refresh between change and
read. Before each read the sizes differ and a change is pending, afterwards they agree. -/
example : (sizeStory [.window ⟨3, 4⟩, .call (.draw (.writeAt ⟨0, 0⟩ ['a'])), .call .refresh,
      .call (.readEvent (some 0)), .call (.waitEvent (some 0)), .call (.readEvent (some 0)), .window ⟨1, 5⟩]
      (sizeUS (List.replicate 9 (okStep 0) ++ ⟨[.winch], .ok 0, some ⟨2, 6⟩⟩ ::
        List.replicate 9 (okStep 0)))).map
    (fun x => decide (x.1.1.data.buf.size = ⟨2, 3⟩ ∧ x.1.2.size = ⟨2, 3⟩ ∧
      resultsOf x.2.1 = [.unit, .unit, .event (some (.resize ⟨3, 4⟩)), .flag true,
        .event (some (.resize ⟨2, 6⟩))] ∧
      x.2.2.1.buf.size = ⟨2, 6⟩ ∧ x.2.2.2.size = ⟨1, 5⟩ ∧ pendingSig x.2.2.2 = some .winch ∧
      x.2.2.2.seen = [.winch, .winch, .winch])) = some true := by decide +kernel

/-- C61: the hypotheses of `C61_next_read` in such a case: a pending change, half a character in the buffer,
and a signal arriving that the crate does not handle. -/
example : (okOf (screenReadEvent demoEnvR (some 0) (SData.new ⟨2, 3⟩)
      { sigUS [⟨[.tstp], .ok 0, none⟩, okStep 0] with size := ⟨4, 5⟩, last := 28, inBuf := [0xc3] })).map
    (fun x => (x.1.1, x.1.2.buf.size)) = some (some (.resize ⟨4, 5⟩), ⟨4, 5⟩) ∧
    latest (handled (sigUS []).act [.tstp]) (some .winch) = some .winch := by
  constructor <;> decide +kernel

/-- C61: the hypotheses of `C61_size_from_partial` and `C61_stays_unknown`: a change is superseded by SIGINT and
missed; reads, waiting, drawing and another SIGINT do not tell it; then the window changes again, and the
screen learns its size. From then on it has the right size, and a new change is pending at the end. -/
example :
    let sched := List.replicate 7 (okStep 0) ++ ⟨[.int], .ok 0, none⟩ :: List.replicate 5 (okStep 0) ++
      ⟨[.int, .quit], .ok 0, none⟩ :: List.replicate 12 (okStep 0)
    let es1 : List SizeEv := [.window ⟨3, 4⟩, .call (.readEvent (some 0)), .call (.readEvent (some 0))]
    let es2 : List SizeEv := [.call (.draw (.writeAt ⟨0, 0⟩ ['a'])), .call .refresh, .call (.waitEvent (some 0)),
      .call (.readEvent (some 0))]
    let es3 : List SizeEv := [.window ⟨2, 2⟩, .call (.readEvent (some 0))]
    let es4 : List SizeEv := [.call .refresh, .window ⟨1, 5⟩]
    (do
      let (_, rs1, d1, s1) ← sizeStory es1 (sizeUS sched)
      let (rs2, d2, s2) ← runSize demoEnv demoEnvR es2 d1 s1
      let (rs3, d3, s3) ← runSize demoEnv demoEnvR es3 d2 s2
      let (rs4, d4, s4) ← runSize demoEnv demoEnvR es4 d3 s3
      pure (decide (resultsOf rs1 = [.event (some (.signal .interrupt)), .event none] ∧
        d1.buf.size = ⟨2, 3⟩ ∧ s1.size = ⟨3, 4⟩ ∧ pendingSig s1 = none ∧ s1.seen = [.winch, .int] ∧
        s2.seen = s1.seen ++ [.int] ∧ d2.buf.size = ⟨2, 3⟩ ∧
        resultsOf rs2 = [.unit, .unit, .flag false, .event (some (.signal .interrupt))] ∧
        d3.buf.size = ⟨2, 2⟩ ∧ s3.size = ⟨2, 2⟩ ∧ resultsOf rs3 = [.event (some (.resize ⟨2, 2⟩))] ∧
        d4.buf.size = ⟨2, 2⟩ ∧ s4.size = ⟨1, 5⟩ ∧ pendingSig s4 = some .winch ∧
        resultsOf rs4 = [.unit]))) = some true := by decide +kernel

/-- **C61 (refuted part).** `Screen::new` asks for the size before it installs the handler of SIGWINCH. A
change in between is lost: nothing is pending, and reading does not tell it. -/
theorem C61_missed_while_opening :
    (sizeStory [.call (.readEvent (some 0))]
      (sizeUS (okStep 0 :: ⟨[.winch], .ok 0, some ⟨4, 6⟩⟩ :: List.replicate 9 (okStep 0)))).map
    (fun x => decide (x.1.1.data.buf.size = ⟨2, 3⟩ ∧ x.1.2.size = ⟨4, 6⟩ ∧ pendingSig x.1.2 = none ∧
      resultsOf x.2.1 = [.event none] ∧ x.2.2.1.buf.size = ⟨2, 3⟩ ∧ x.2.2.2.size = ⟨4, 6⟩ ∧
      pendingSig x.2.2.2 = none ∧ x.2.2.2.seen = [])) = some true := by decide +kernel

/-- **C61 (refuted part).** The window changes its size, then SIGINT arrives: the interrupt is reported,
the new size is not, then or later. -/
theorem C61_superseded :
    (sizeStory [.window ⟨3, 4⟩, .call (.readEvent (some 0)), .call (.readEvent (some 0))]
      (sizeUS (List.replicate 7 (okStep 0) ++ ⟨[.int], .ok 0, none⟩ :: List.replicate 9 (okStep 0)))).map
    (fun x => decide (x.1.1.data.buf.size = x.1.2.size ∧
      resultsOf x.2.1 = [.event (some (.signal .interrupt)), .event none] ∧
      x.2.2.1.buf.size = ⟨2, 3⟩ ∧ x.2.2.2.size = ⟨3, 4⟩ ∧ pendingSig x.2.2.2 = none ∧
      x.2.2.2.seen = [.winch, .int])) = some true := by decide +kernel

/-- **C61 (refuted part).** The signal is taken before the size is asked for. If asking fails, the read
fails and no later read tells of the change. -/
theorem C61_lost_by_failure :
    (sizeStory [.window ⟨3, 4⟩, .call (.readEvent (some 0)), .call (.readEvent (some 0))]
      (sizeUS (List.replicate 8 (okStep 0) ++ ⟨[], .fail, none⟩ :: List.replicate 9 (okStep 0)))).map
    (fun x => decide (x.1.1.data.buf.size = x.1.2.size ∧
      resultsOf x.2.1 = [.err .os, .event none] ∧
      x.2.2.1.buf.size = ⟨2, 3⟩ ∧ x.2.2.2.size = ⟨3, 4⟩ ∧ pendingSig x.2.2.2 = none ∧
      x.2.2.2.seen = [.winch])) = some true := by decide +kernel

end Mortal
