import Verif.Lemmas.ScreenResize
import Verif.Props.Prepare
import Verif.Props.Signals
import Verif.Props.Screen

/-! # C37 and C48: opening a screen, using it, dropping it -/

namespace Mortal
open Spec

/-! ## C37: what a session leaves behind -/

/-- **C37 (partial).** A screen is opened, used in any way for any length of time — drawing, refreshes,
guards, reads that handle signals, with failures of any kind on the way — and dropped; then terminal
modes, signal handlers and the remembered configuration are as before, the alternate screen is left,
the cursor is visible and all output has been passed on. Partial: from the drop on no system call
fails; see `C37_exit_skipped` and `C37_modes_kept` for what happens otherwise. -/
theorem C37_session_partial (u : UEnv) (env : REnv) (cfg : PrepareConfig) (ops : List ScrOp)
    (rs : List URet) (scr : ScreenU) (d : SData) (s0 s1 s2 s3 : US)
    (hdb : GoodDB env.w) (hx : (env.w.db .exitCaMode).isSome)
    (h1 : screenNew env cfg s0 = .ok scr s1)
    (h2 : runScr u env ops scr.data s1 = some (rs, d, s2))
    (hs : NoFailures s2) (h3 : screenDrop env scr.state s2 = .ok () s3) :
    (s3.tio = s0.tio ∧ s3.act = s0.act ∧ s3.resume = s0.resume) ∧
    altScreen s3.w.log = false ∧
    ((env.w.db .cursorNormal).isSome → cursorModeOf s3.w.log = some .normal) ∧
    s3.w.pending = [] := by
  obtain ⟨sa, sb, k1, k2, k3, _⟩ := screenNew_ok h1
  obtain ⟨c1, _⟩ := termSize_ok k1
  have e1 : Stays sb s1 := (keeps_termEnter (R := Stays) env).ok k3
  obtain ⟨a1, r1⟩ := e1 (coherent_prepared k2)
  obtain ⟨a2, _⟩ := stays_runScr h2 ((coherent_prepared k2).stays a1 r1)
  obtain ⟨⟨d1, d2, d3⟩, rest⟩ := dropped hdb hx k2 (a2.trans a1) hs h3
  exact ⟨⟨d1.trans (core_tio c1), d2.trans (core_act c1), d3.trans (core_resume c1)⟩, rest⟩

/-- **C37.** While the screen is in use, the terminal is in the modes asked for and the handlers are
installed. The screen has the size that the terminal had when `new` asked for it, with its first
system call. -/
theorem C37_open (env : REnv) (cfg : PrepareConfig) (scr : ScreenU) (s0 s1 : US)
    (h1 : screenNew env cfg s0 = .ok scr s1) :
    scr.data.buf.size = (s0.sched.head?.bind Step.resize).getD s0.size ∧ scr.data.clear = false ∧ HandlersFor cfg s0.act s1.act ∧
    s1.resume = some cfg := by
  obtain ⟨sa, sb, k1, k2, k3, k4⟩ := screenNew_ok h1
  obtain ⟨c1, _, z1⟩ := termSize_ok k1
  have e1 : Stays sb s1 := (keeps_termEnter (R := Stays) env).ok k3
  obtain ⟨a1, r1⟩ := e1 (coherent_prepared k2)
  obtain ⟨_, p2, _, _⟩ := C35_prepare_establishes env cfg sa sb _ k2
  refine ⟨z1, by rw [k4]; rfl, ?_, ?_⟩
  · rw [a1, ← show sa.act = s0.act from core_act c1]; exact p2
  · rw [r1, core_resume (prepare_ok k2).1]; rfl

/-- **C37 (partial).** If opening a screen fails for another reason than a failing system call (a
terminal without the required capabilities), everything is put back. Partial: see
`C37_failed_new_raw`. -/
theorem C37_failed_new_partial (env : REnv) (cfg : PrepareConfig) (s0 s1 : US) (e : IoErr)
    (hdb : GoodDB env.w) (hx : (env.w.db .exitCaMode).isSome) (hs : NoFailures s0)
    (h1 : screenNew env cfg s0 = .err e s1) :
    (s1.tio = s0.tio ∧ s1.act = s0.act ∧ s1.resume = s0.resume) ∧
    altScreen s1.w.log = false ∧
    ((env.w.db .cursorNormal).isSome → cursorModeOf s1.w.log = some .normal) ∧
    s1.w.pending = [] := by
  rcases M.bind_err h1 with h | ⟨z, sa, k1, h⟩
  · obtain ⟨e1, sx, h, _⟩ := orDrop_err h
    exact ((smooth_termSize env).err hs h).elim
  have k1 := orDrop_ok k1
  have hsa := (smooth_termSize env).ok hs k1
  obtain ⟨c1, _⟩ := termSize_ok k1
  rcases M.bind_err h with h | ⟨p, sb, k2, h⟩
  · obtain ⟨e1, sx, h, _⟩ := orDrop_err h
    exact ((smooth_prepare hdb cfg).err hsa h).elim
  have k2 := orDrop_ok k2
  have hsb := (smooth_prepare hdb cfg).ok hsa k2
  rcases M.bind_err h with h | ⟨_, sc, _, h⟩
  · obtain ⟨e1, sx, h, hd⟩ := orDrop_err h
    have hsx := termEnter_fine hsb h
    have ex : Stays sb sx := (keeps_termEnter (R := Stays) env).err h
    obtain ⟨a1, _⟩ := ex (coherent_prepared k2)
    rcases hd with ⟨e2, hd⟩ | hd
    · exfalso
      rcases M.bind_err hd with h5 | ⟨_, s5, h5, h6⟩
      · unfold printErr at h5; split at h5 <;> cases h5
      · unfold termDrop printErr at h6; split at h6 <;> cases h6
    · obtain ⟨⟨d1, d2, d3⟩, rest⟩ := dropped hdb hx k2 a1 hsx hd
      exact ⟨⟨d1.trans (core_tio c1), d2.trans (core_act c1), d3.trans (core_resume c1)⟩, rest⟩
  · cases h

/-! ## C48: resize events -/

/-- **C48.** An event read from a screen: a resize event carries the size that the terminal
has when the event is returned, which is the screen's size from then on; content, cursor and
attributes are kept. Any other result leaves the screen alone. On Windows see `C48_win_read_event` and the theorems after it. -/
theorem C48_read_event (env : REnv) (t : Option Nat) (d d' : SData) (s s' : US)
    (r : Option Event) (h : screenReadEvent env t d s = .ok (r, d') s') :
    (∀ z, r = some (.resize z) → z = s'.size ∧ d'.buf.size = z ∧
      (GridOk d.buf → GoodSize z → ResizedTo d.buf d'.buf z)) ∧
    ((∀ z, r ≠ some (.resize z)) → d' = d) := by
  obtain ⟨o, s1, h1, h⟩ := M.bind_ok h
  rcases o with _ | ev
  · cases h; exact ⟨fun z e => (by cases e), fun _ => rfl⟩
  cases ev with
  | resize z =>
    dsimp only at h
    cases hd : d.updateSize z with
    | none => rw [hd] at h; cases h
    | some d2 =>
      rw [hd] at h
      cases h
      refine ⟨fun z' e => ?_, fun e => (e z rfl).elim⟩
      cases e
      exact ⟨readEvent_resize h1, (updateSize_some hd).1, updateSize_resized hd⟩
  | key k => cases h; exact ⟨fun z e => (by cases e), fun _ => rfl⟩
  | mouse k => cases h; exact ⟨fun z e => (by cases e), fun _ => rfl⟩
  | signal k => cases h; exact ⟨fun z e => (by cases e), fun _ => rfl⟩
  | raw k => cases h; exact ⟨fun z e => (by cases e), fun _ => rfl⟩
  | noEvent => cases h; exact ⟨fun z e => (by cases e), fun _ => rfl⟩

/-- **C48.** The same for raw reads. -/
theorem C48_read_raw (env : REnv) (n : Nat) (t : Option Nat) (d d' : SData) (s s' : US)
    (r : InRes) (h : screenReadRaw env n t d s = .ok (r, d') s') :
    (∀ z, r = .event (.resize z) → z = s'.size ∧ d'.buf.size = z ∧
      (GridOk d.buf → GoodSize z → ResizedTo d.buf d'.buf z)) ∧
    ((∀ z, r ≠ .event (.resize z)) → d' = d) := by
  obtain ⟨o, s1, h1, h⟩ := M.bind_ok h
  cases o with
  | nothing => cases h; exact ⟨fun z e => (by cases e), fun _ => rfl⟩
  | raw b => cases h; exact ⟨fun z e => (by cases e), fun _ => rfl⟩
  | event ev =>
    cases ev with
    | resize z =>
      dsimp only at h
      cases hd : d.updateSize z with
      | none => rw [hd] at h; cases h
      | some d2 =>
        rw [hd] at h
        cases h
        refine ⟨fun z' e => ?_, fun e => (e z rfl).elim⟩
        cases e
        exact ⟨readRaw_resize h1, (updateSize_some hd).1, updateSize_resized hd⟩
    | key k => cases h; exact ⟨fun z e => (by cases e), fun _ => rfl⟩
    | mouse k => cases h; exact ⟨fun z e => (by cases e), fun _ => rfl⟩
    | signal k => cases h; exact ⟨fun z e => (by cases e), fun _ => rfl⟩
    | raw k => cases h; exact ⟨fun z e => (by cases e), fun _ => rfl⟩
    | noEvent => cases h; exact ⟨fun z e => (by cases e), fun _ => rfl⟩

/-- **C48 (partial).** After a resize event, and any drawing calls, the next refresh clears the
terminal and sends every visible cell of the new size. Missing: buffers with torn two-column
characters (`C17_cut_refuted` for these). -/
theorem C48_repaint_partial {u : UEnv} (hu : SpaceOk u) (env : REnv) (t : Option Nat) (d d' : SData)
    (s s' : US) (z : Size) (h : screenReadEvent env t d s = .ok (some (.resize z), d') s')
    (ops : List BufOp) (hops : ∀ op ∈ ops, ∀ z, op ≠ .resize z) (b : Buf)
    (hb : runOps u ops d'.buf = some b) (hgb : GridOk b) (hn : NoTorn u b) (x : Scr)
    (hr : ({ d' with buf := b, w := s'.w } : Scr).refresh u env.w = .ok x) :
    ∃ ps : List Cursor, ps.Pairwise Before ∧
      (∀ p, InBounds p s'.size → ¬ RightHalf u b p → p ∈ ps) ∧
      sentTexts x.w.log = sentTexts s'.w.log ++ ps.map (textAt b) ∧
      ∃ new, x.w.log = s'.w.log ++ .cap .clearScreen [] :: new := by
  obtain ⟨o, s1, h1, h⟩ := M.bind_ok h
  have hz : z = s'.size ∧ d.updateSize z = some d' := by
    rcases o with _ | ev
    · cases h
    cases ev with
    | resize z' =>
      dsimp only at h
      cases hd : d.updateSize z' with
      | none => rw [hd] at h; cases h
      | some d2 => rw [hd] at h; cases h; exact ⟨readEvent_resize h1, hd⟩
    | key k => cases h
    | mouse k => cases h
    | signal k => cases h
    | raw k => cases h
    | noEvent => cases h
  obtain ⟨rfl, hd⟩ := hz
  exact C17_repaints_partial hu env.w { d with w := s'.w } x d' s'.size hd ops hops b hb hgb hn hr

/-! ## Witnesses -/

/-- The final state of a run of a whole session, with the state before the drop. -/
def wholeSession (env : REnv) (cfg : PrepareConfig) (ops : List ScrOp) (change : US → US) (s0 : US) :
    Option (US × US) := do
  let (scr, s1) ← okOf (screenNew env cfg s0)
  let (_, _, s2) ← runScr demoEnv env ops scr.data s1
  let (_, s3) ← okOf (screenDrop env scr.state (change s2))
  pure (change s2, s3)

theorem wholeSession_some {env : REnv} {cfg : PrepareConfig} {ops : List ScrOp} {change : US → US}
    {s0 s2 s3 : US} (h : wholeSession env cfg ops change s0 = some (s2, s3)) :
    ∃ scr s1 rs d s2', screenNew env cfg s0 = .ok scr s1 ∧
      runScr demoEnv env ops scr.data s1 = some (rs, d, s2') ∧ s2 = change s2' ∧
      screenDrop env scr.state s2 = .ok () s3 := by
  unfold wholeSession at h
  cases h1 : screenNew env cfg s0 with
  | err e s => rw [h1] at h; cases h
  | stop w => rw [h1] at h; cases h
  | ok scr s1 =>
    rw [h1] at h
    dsimp only [okOf, Option.bind_eq_bind, Option.bind_some] at h
    cases h2 : runScr demoEnv env ops scr.data s1 with
    | none => rw [h2] at h; cases h
    | some v =>
      obtain ⟨rs, d, s2'⟩ := v
      rw [h2] at h
      dsimp only [Option.bind_some] at h
      cases h3 : screenDrop env scr.state (change s2') with
      | err e s => rw [h3] at h; cases h
      | stop w => rw [h3] at h; cases h
      | ok x s =>
        rw [h3] at h
        cases h
        exact ⟨scr, s1, rs, d, s2', rfl, h2, rfl, h3⟩

/-- A small terminal on which every call succeeds. -/
def smallUS (n : Nat) : US := { easyUS n with size := ⟨2, 3⟩ }

/-- C37: a session with drawing, a refresh, a guard, a change of the cursor and a read. It meets the
hypotheses of `C37_session_partial`; the modes, the handlers and the screen really change. -/
example : (wholeSession demoEnvR demoCfg
      [.draw (.writeAt ⟨0, 0⟩ ['a', 'b']), .refresh, .guard [.draw (.writeAt ⟨1, 0⟩ ['c']), .refresh],
        .setCursorMode .invisible, .readEvent (some 0)] id (smallUS 60)).map
    (fun x => decide (x.1.tio ≠ (smallUS 0).tio ∧ x.1.act ≠ (smallUS 0).act ∧ x.1.resume = some demoCfg ∧
      altScreen x.1.w.log = true ∧ cursorModeOf x.1.w.log = some .invisible ∧
      (∀ r ∈ x.1.w.os, r = .all) ∧ (∀ st ∈ x.1.sched, st = okStep 0) ∧
      x.2.tio = (smallUS 0).tio ∧ x.2.act = (smallUS 0).act ∧ x.2.resume = none ∧
      altScreen x.2.w.log = false ∧ cursorModeOf x.2.w.log = some .normal ∧ x.2.w.pending = [])) =
    some true := by decide +kernel

/-- The demonstration database expands everything. -/
theorem demo_good : GoodDB demoEnvR.w := by
  intro c f h ps
  cases h
  rfl

/-- **C37 (refuted part).** If a system call fails while the screen is dropped, here the one that
puts back the terminal modes, the alternate screen is not left, and the modes stay, too. -/
theorem C37_exit_skipped :
    ∃ scr s1 s2 s3, screenNew demoEnvR demoCfg (smallUS 60) = .ok scr s1 ∧
      s2 = { s1 with sched := [⟨[], .fail, none⟩, okStep 0, okStep 0] } ∧
      screenDrop demoEnvR scr.state s2 = .ok () s3 ∧ s3.sched ≠ [] ∧
      altScreen s3.w.log = true ∧ s3.tio ≠ (smallUS 60).tio ∧ s3.act ≠ (smallUS 60).act := by
  have h : (wholeSession demoEnvR demoCfg []
      (fun s => { s with sched := [⟨[], .fail, none⟩, okStep 0, okStep 0] }) (smallUS 60)).map
      (fun x => decide (x.2.sched ≠ [] ∧ altScreen x.2.w.log = true ∧ x.2.tio ≠ (smallUS 60).tio ∧
        x.2.act ≠ (smallUS 60).act)) = some true := by decide +kernel
  obtain ⟨⟨s2, s3⟩, h1, h2⟩ := Option.map_eq_some_iff.1 h
  obtain ⟨scr, s1, rs, d, s2', k1, k2, k3, k4⟩ := wholeSession_some h1
  cases k2
  obtain ⟨a, b, c, e⟩ := of_decide_eq_true h2
  exact ⟨scr, s1, s2, s3, k1, k3, k4, a, b, c, e⟩

/-- **C37 (refuted part).** A failing write while the screen is dropped (a failure of the output
device only) keeps the terminal in raw mode with the handlers installed. -/
theorem C37_modes_kept :
    ∃ scr s1 s2 s3, screenNew demoEnvR demoCfg (smallUS 60) = .ok scr s1 ∧
      s2 = { s1 with w := { s1.w with os := [.fail, .all, .all, .all] } } ∧
      (∀ st ∈ s2.sched, st = okStep 0) ∧
      screenDrop demoEnvR scr.state s2 = .ok () s3 ∧
      altScreen s3.w.log = true ∧ s3.tio ≠ (smallUS 60).tio ∧ s3.act ≠ (smallUS 60).act := by
  have h : (wholeSession demoEnvR demoCfg []
      (fun s => { s with w := { s.w with os := [.fail, .all, .all, .all] } }) (smallUS 60)).map
      (fun x => decide ((∀ st ∈ x.1.sched, st = okStep 0) ∧ altScreen x.2.w.log = true ∧
        x.2.tio ≠ (smallUS 60).tio ∧ x.2.act ≠ (smallUS 60).act)) = some true := by decide +kernel
  obtain ⟨⟨s2, s3⟩, h1, h2⟩ := Option.map_eq_some_iff.1 h
  obtain ⟨scr, s1, rs, d, s2', k1, k2, k3, k4⟩ := wholeSession_some h1
  cases k2
  obtain ⟨a, b, c, e⟩ := of_decide_eq_true h2
  exact ⟨scr, s1, s2, s3, k1, k3, a, k4, b, c, e⟩

/-- **C37 (refuted part).** If `Screen::new` fails because a handler cannot be installed, the terminal
stays in raw mode although all later calls succeed. -/
theorem C37_failed_new_raw :
    ∃ e s1, screenNew demoEnvR demoCfg
        { smallUS 0 with sched := List.replicate 4 (okStep 0) ++ ⟨[], .fail, none⟩ :: List.replicate 9 (okStep 0) } =
          .err e s1 ∧ (∀ st ∈ s1.sched, st = okStep 0) ∧ s1.tio ≠ (smallUS 0).tio ∧
        s1.act.get .cont = .ours ∧ s1.resume = none := by
  obtain ⟨e, s', h, hf⟩ := errOf_any
    (r := screenNew demoEnvR demoCfg { smallUS 0 with
      sched := List.replicate 4 (okStep 0) ++ ⟨[], .fail, none⟩ :: List.replicate 9 (okStep 0) })
    (f := fun (x : IoErr × US) => decide ((∀ st ∈ x.2.sched, st = okStep 0) ∧
      x.2.tio ≠ (smallUS 0).tio ∧ x.2.act.get .cont = .ours ∧ x.2.resume = none)) (by decide +kernel)
  exact ⟨e, s', h, of_decide_eq_true hf⟩

/-- A database without `change_scroll_region`: opening a screen fails after `prepare`. -/
def noScrollEnv : REnv :=
  { demoEnvR with w := { demoDB with db := fun c => if c = .changeScrollRegion then none else demoDB.db c } }

/-- C37: the case of `C37_failed_new_partial` where the terminal lacks a capability. -/
example : GoodDB noScrollEnv.w ∧ (noScrollEnv.w.db .exitCaMode).isSome ∧ NoFailures (smallUS 60) ∧
    ∃ e s1, screenNew noScrollEnv demoCfg (smallUS 60) = .err e s1 := by
  refine ⟨?_, rfl, ⟨?_, ?_⟩, ?_⟩
  · intro c f h ps
    by_cases hc : c = .changeScrollRegion
    · rw [show noScrollEnv.w.db c = none from if_pos hc] at h; cases h
    · rw [show noScrollEnv.w.db c = demoDB.db c from if_neg hc] at h; cases h; rfl
  · intro st hst
    exact ⟨0, by rw [show st = okStep 0 from List.eq_of_mem_replicate hst]; rfl⟩
  · intro r hr
    exact Or.inl (List.eq_of_mem_replicate hr)
  · obtain ⟨e, s', h, _⟩ := errOf_any (r := screenNew noScrollEnv demoCfg (smallUS 60))
      (f := fun _ => true) (by decide +kernel)
    exact ⟨e, s', h⟩

/-- The call panics. -/
def panicked {α : Type} : Res α → Bool
  | .stop .panic => true
  | _ => false

theorem panicked_iff {α : Type} {r : Res α} (h : panicked r = true) : r = .stop .panic := by
  cases r with
  | ok a s => cases h
  | err e s => cases h
  | stop w => cases w <;> first | rfl | cases h

/-- **C37 (refuted part).** On a terminal that reports zero lines, `Screen::new` panics, after the
alternate screen has been requested. -/
theorem C37_zero_lines_panics :
    screenNew demoEnvR demoCfg { easyUS 60 with size := ⟨0, 80⟩ } = .stop .panic :=
  panicked_iff (by decide +kernel)

/-- C48: the window has become smaller; the read reports it and the screen has the new size. -/
example : (okOf (screenReadEvent demoEnvR none (SData.new ⟨3, 4⟩)
      { sigUS [⟨[.winch], .ok 0, some ⟨2, 3⟩⟩, okStep 0, okStep 0] with size := ⟨3, 4⟩ })).map
    (fun x => (x.1.1, x.1.2.buf.size, x.1.2.clear)) =
    some (some (.resize ⟨2, 3⟩), ⟨2, 3⟩, true) := by decide +kernel

end Mortal
