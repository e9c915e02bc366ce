import Verif.Model.WinScreen
import Verif.Lemmas.WinAgain
import Verif.Lemmas.SessionRun
import Verif.Props.Writer
import Verif.Props.Screen
import Verif.Props.WinShow

/-! # C56: write guards of screens show what was drawn when they are dropped; C19 on Windows -/

namespace Mortal
open Spec

theorem sessionEnd_noop {env : WEnv} {s : Scr} (h : s.w.pending = []) :
    s.onW (WOp.sessionEnd.run env) = .ok s := by
  apply onW_noop
  show (match flush s.w with
    | .err _ s' => Outcome.ok s'
    | r => r) = _
  rw [flush_noop h]

/-! ## Unix -/

/-- C56. Dropping a guard does what a refresh does, when that succeeds: the same goes to the
terminal, and nothing more; nothing is left pending. -/
theorem C56_drop (u : UEnv) (env : WEnv) (s s' : Scr) (h : s.refresh u env = .ok s') :
    guardDrop u env s = .ok s' ∧ s'.w.pending = [] := by
  have hp := refresh_pending h
  refine ⟨?_, hp⟩
  unfold guardDrop
  rw [h]
  exact sessionEnd_noop hp

/-- C56. When the refresh of the drop fails, what it had produced still reaches the terminal as soon
as the device accepts data (after any number of interruptions); the drop itself does not fail. The
cells, the cursor and the colors of the buffer are those of the failed refresh. -/
theorem C56_drop_after_error (u : UEnv) (env : WEnv) (s s1 : Scr) (e : IoErr)
    (h : s.refresh u env = .err e s1) (k : Nat) (rest : List WriteRes)
    (hos : s1.w.os = List.replicate k .eintr ++ .all :: rest) :
    ∃ s', guardDrop u env s = .ok s' ∧ s'.w.pending = [] ∧ s'.w.dev = s1.w.dev ++ s1.w.pending ∧
      s'.toSData = s1.toSData := by
  obtain ⟨w, h1, h2, h3⟩ := C24_drop_flushes env s1.w k rest hos
  refine ⟨{ s1 with w := w }, ?_, h2, h3, rfl⟩
  unfold guardDrop
  rw [h]
  exact onW_ok h1

/-- C56. A drop of a guard never reports an error. -/
theorem C56_drop_no_error (u : UEnv) (env : WEnv) (s s' : Scr) (e : IoErr) :
    guardDrop u env s ≠ .err e s' := by
  have hend : ∀ s1 : Scr, s1.onW (WOp.sessionEnd.run env) ≠ .err e s' := by
    intro s1 h
    rw [onW_def] at h
    cases hf : WOp.sessionEnd.run env s1.w with
    | ok w => rw [hf] at h; cases h
    | stop x => rw [hf] at h; cases h
    | err e1 w =>
      change (match flush s1.w with
        | .err _ s' => Outcome.ok s'
        | r => r) = _ at hf
      cases hfl : flush s1.w with
      | ok w => rw [hfl] at hf; cases hf
      | err e w => rw [hfl] at hf; cases hf
      | stop x => rw [hfl] at hf; cases hf
  intro h
  unfold guardDrop at h
  cases hr : s.refresh u env with
  | ok s1 => rw [hr] at h; exact hend s1 h
  | err e1 s1 => rw [hr] at h; exact hend s1 h
  | stop x => rw [hr] at h; cases h

/-- C56. `Screen::refresh` takes a guard, refreshes and drops the guard, so it refreshes twice. When
the first refresh succeeds, this is one refresh: the second makes no call to the system. -/
theorem C56_refresh_call (u : UEnv) (env : WEnv) (s s' : Scr) (hg : GridOk s.buf)
    (h : s.refresh u env = .ok s') : refreshCall u env s = .ok s' := by
  unfold refreshCall
  rw [h]
  exact (C56_drop u env s' s' (C19_second_refresh_silent u env s s' hg h)).1

/-- C56. When the first refresh fails, its error is returned; the drop tries once more, and when that
works the screen is as after a successful refresh. -/
theorem C56_refresh_call_error (u : UEnv) (env : WEnv) (s s1 s2 : Scr) (e : IoErr)
    (h : s.refresh u env = .err e s1) (h2 : s1.refresh u env = .ok s2) :
    refreshCall u env s = .err e s2 := by
  unfold refreshCall
  rw [h]
  dsimp only
  rw [(C56_drop u env s1 s2 h2).1]
  rfl

/-- C56. A guard held for drawing calls and then for others: the others find the changed buffer, and
nothing sent. -/
theorem C56_draw (u : UEnv) (env : WEnv) (ops : List BufOp) (rest : List GOp) (s : Scr) (b : Buf)
    (hb : runOps u ops s.buf = some b) :
    guardSession u env (ops.map .draw ++ rest) s = guardSession u env rest { s with buf := b } := by
  induction ops generalizing s with
  | nil => cases hb; rfl
  | cons op ops ih =>
    unfold runOps at hb
    cases ho : op.run u s.buf with
    | none => rw [ho] at hb; cases hb
    | some b1 =>
      rw [ho] at hb
      rw [List.map_cons, List.cons_append, guardSession, GOp.run, ho]
      exact ih { s with buf := b1 } hb

/-- C56. `refresh` on a guard shows at once what was drawn before; what follows goes on from there, also
when it fails. -/
theorem C56_guard_refresh (u : UEnv) (env : WEnv) (ops : List BufOp) (rest : List GOp) (s s' : Scr)
    (b : Buf) (hb : runOps u ops s.buf = some b)
    (h : (({ s with buf := b } : Scr).refresh u env).state = some s') :
    guardSession u env (ops.map .draw ++ .refresh :: rest) s = guardSession u env rest s' := by
  rw [C56_draw u env ops _ s b hb, guardSession, GOp.run]
  cases hr : ({ s with buf := b } : Scr).refresh u env with
  | ok s1 => rw [hr] at h; cases h; rfl
  | err e s1 => rw [hr] at h; cases h; rfl
  | stop x => rw [hr] at h; cases h

/-- C56. `set_cursor_mode` on a guard takes effect at that point, on the writer alone. -/
theorem C56_guard_cursor_mode (u : UEnv) (env : WEnv) (ops : List BufOp) (m : CursorMode)
    (rest : List GOp) (s : Scr) (w : WS) (b : Buf) (hb : runOps u ops s.buf = some b)
    (h : (WOp.run env (.setCursorMode m) s.w).state = some w) :
    guardSession u env (ops.map .draw ++ .setCursorMode m :: rest) s =
      guardSession u env rest { s with buf := b, w := w } := by
  rw [C56_draw u env ops _ s b hb, guardSession, GOp.run, onW_def]
  change (Mortal.setCursorMode env m s.w).state = some w at h
  dsimp only
  cases hr : Mortal.setCursorMode env m s.w with
  | ok s1 => rw [hr] at h; cases h; rfl
  | err e s1 => rw [hr] at h; cases h; rfl
  | stop x => rw [hr] at h; cases h

/-- C56. Drawing calls on a guard send nothing; the drop shows what they made of the buffer. -/
theorem C56_session (u : UEnv) (env : WEnv) (ops : List BufOp) (s s' : Scr) (b : Buf)
    (hb : runOps u ops s.buf = some b) (h : ({ s with buf := b } : Scr).refresh u env = .ok s') :
    guardSession u env (ops.map .draw) s = .ok s' := by
  induction ops generalizing s with
  | nil =>
    cases hb
    exact (C56_drop u env s s' h).1
  | cons op ops ih =>
    unfold runOps at hb
    cases ho : op.run u s.buf with
    | none => rw [ho] at hb; cases hb
    | some b1 =>
      rw [ho] at hb
      rw [List.map_cons, guardSession, GOp.run, ho]
      exact ih { s with buf := b1 } hb h

/-- A screen of one line on which `a` is drawn while the device is out of order once: the refresh of
the drop fails, the flush after it delivers what the refresh had produced. -/
example :
    let s := (demoSess ⟨1, 4⟩ [.fail, .eintr, .all]).s
    let b := (runOps demoEnv [.writeAt ⟨0, 0⟩ ['a']] s.buf).getD s.buf
    let s0 : Scr := { s with buf := b }
    (match s0.refresh demoEnv demoDB with
    | .err _ s1 => decide (s1.w.os = List.replicate 1 .eintr ++ .all :: [] ∧ s1.w.pending ≠ []) &&
        (match guardSession demoEnv demoDB [.draw (.writeAt ⟨0, 0⟩ ['a'])] s with
          | .ok s2 => decide (s2.w.dev = s1.w.dev ++ s1.w.pending)
          | _ => false)
    | _ => false) = true := by decide +kernel

/-- The same screen while the device works: the drop is the refresh. -/
example :
    let s := (demoSess ⟨1, 4⟩ [.all]).s
    let b := (runOps demoEnv [.writeAt ⟨0, 0⟩ ['a']] s.buf).getD s.buf
    let s0 : Scr := { s with buf := b }
    (match s0.refresh demoEnv demoDB with
    | .ok s1 => decide (s1.w.dev.length > s.w.dev.length)
    | _ => false) = true := by decide +kernel

/-- `a` is drawn, refreshed while the guard is held, then the cursor is hidden: there is output of both
before the guard is dropped. -/
example :
    let s := (demoSess ⟨1, 4⟩ [.all, .all]).s
    let b := (runOps demoEnv [.writeAt ⟨0, 0⟩ ['a']] s.buf).getD s.buf
    let s0 : Scr := { s with buf := b }
    (match s0.refresh demoEnv demoDB with
    | .ok s1 => decide (s1.w.dev.length > s.w.dev.length) &&
        (WOp.run demoDB (.setCursorMode .invisible) s1.w).state.any fun w => decide (w.log.length > s1.w.log.length)
    | _ => false) = true := by decide +kernel

/-! ## Windows -/

/-- C19 on Windows. A refresh right after a successful one changes nothing: the console is not
called. For every screen with an intact grid, whatever happened on the console before. -/
theorem C19_win_second_refresh_silent (u : UEnv) (t : WTerm) (x x' : WScr) (hg : GridOk x.buf)
    (h : wsRefresh u t x = .ok () x') : wsRefresh u t x' = .ok () x' :=
  wsRefresh_again ⟨hg.size, hg.len, hg.backLen, hg.text⟩ h

/-- C56 on Windows. Dropping a guard does what a refresh does, when that succeeds. -/
theorem C56_win_drop (u : UEnv) (t : WTerm) (x x' : WScr) (h : wsRefresh u t x = .ok () x') :
    wsGuardDrop u t x = .ok () x' := by
  unfold wsGuardDrop SM.ignore
  rw [h]

/-- C56 on Windows. When the refresh of the drop fails, the drop ends there without an error. -/
theorem C56_win_drop_after_error (u : UEnv) (t : WTerm) (x x' : WScr) (e : IoErr)
    (h : wsRefresh u t x = .err e x') : wsGuardDrop u t x = .ok () x' := by
  unfold wsGuardDrop SM.ignore
  rw [h]

/-- C56 on Windows. `Screen::refresh`, when its refresh succeeds, is this one refresh. -/
theorem C56_win_refresh_call (u : UEnv) (t : WTerm) (x x' : WScr) (hg : GridOk x.buf)
    (h : wsRefresh u t x = .ok () x') : wsRefreshCall u t x = .ok () x' := by
  unfold wsRefreshCall
  rw [h]
  exact C56_win_drop u t x' x' (C19_win_second_refresh_silent u t x x' hg h)

/-- C56 on Windows. When the first refresh fails, its error is returned; the drop tries once more, and
when that works the screen is as after a successful refresh. -/
theorem C56_win_refresh_call_error (u : UEnv) (t : WTerm) (x x1 x2 : WScr) (e : IoErr)
    (h : wsRefresh u t x = .err e x1) (h2 : wsRefresh u t x1 = .ok () x2) :
    wsRefreshCall u t x = .err e x2 := by
  unfold wsRefreshCall
  rw [h]
  dsimp only
  rw [C56_win_drop u t x1 x2 h2]

theorem wsCall_draw {u : UEnv} {t : WTerm} {op : BufOp} {x : WScr} {b : Buf}
    (h : op.run u x.buf = some b) :
    SM.ignore (wsCall u t (.draw op)) x = .ok () { x with buf := b } := by
  have h1 : wsCall u t (.draw op) x = .ok () { x with buf := b } := by
    rw [wsCall, sm_bind, sm_get]
    dsimp only
    rw [h, sm_bind, sm_ofPanics_some]
    rfl
  unfold SM.ignore
  rw [h1]

/-- C56 on Windows. A guard held for drawing calls and then for others: the others find the changed
buffer, and the console has not been called. -/
theorem C56_win_draw (u : UEnv) (t : WTerm) (ops : List BufOp) (rest : List GOp) (x : WScr) (b : Buf)
    (hb : runOps u ops x.buf = some b) :
    wsGuardSession u t (ops.map .draw ++ rest) x = wsGuardSession u t rest { x with buf := b } := by
  induction ops generalizing x with
  | nil => cases hb; rfl
  | cons op ops ih =>
    unfold runOps at hb
    cases ho : op.run u x.buf with
    | none => rw [ho] at hb; cases hb
    | some b1 =>
      rw [ho] at hb
      rw [List.map_cons, List.cons_append, wsGuardSession, sm_bind, wsCall_draw ho]
      exact ih { x with buf := b1 } hb

/-- C56 on Windows. `refresh` on a guard shows at once what was drawn before; what follows goes on from
there, also when it fails. -/
theorem C56_win_guard_refresh (u : UEnv) (t : WTerm) (ops : List BufOp) (rest : List GOp) (x x' : WScr)
    (b : Buf) (hb : runOps u ops x.buf = some b)
    (h : wsRefresh u t { x with buf := b } = .ok () x' ∨
      ∃ e, wsRefresh u t { x with buf := b } = .err e x') :
    wsGuardSession u t (ops.map .draw ++ .refresh :: rest) x = wsGuardSession u t rest x' := by
  rw [C56_win_draw u t ops _ x b hb, wsGuardSession, sm_bind]
  have : SM.ignore (wsCall u t .refresh) { x with buf := b } = .ok () x' := by
    unfold SM.ignore
    rw [wsCall]
    rcases h with h | ⟨e, h⟩ <;> rw [h]
  rw [this]

/-- C56 on Windows. `set_cursor_mode` on a guard takes effect at that point, on the console alone. -/
theorem C56_win_guard_cursor_mode (u : UEnv) (t : WTerm) (ops : List BufOp) (m : CursorMode)
    (rest : List GOp) (x : WScr) (w : WinSt) (b : Buf) (hb : runOps u ops x.buf = some b)
    (h : winCursorMode m x.w = .ok () w ∨ ∃ e, winCursorMode m x.w = .err e w) :
    wsGuardSession u t (ops.map .draw ++ .setCursorMode m :: rest) x =
      wsGuardSession u t rest { x with buf := b, w := w } := by
  rw [C56_win_draw u t ops _ x b hb, wsGuardSession, sm_bind]
  have : SM.ignore (wsCall u t (.setCursorMode m)) { x with buf := b } =
      .ok () { x with buf := b, w := w } := by
    unfold SM.ignore
    rw [wsCall]
    unfold onT
    dsimp only
    rcases h with h | ⟨e, h⟩ <;> rw [h]
  rw [this]

/-- C56 on Windows. Drawing calls on a guard make no calls to the console; the drop shows what they
made of the buffer. -/
theorem C56_win_session (u : UEnv) (t : WTerm) (ops : List BufOp) (x x' : WScr) (b : Buf)
    (hb : runOps u ops x.buf = some b) (h : wsRefresh u t { x with buf := b } = .ok () x') :
    wsGuardSession u t (ops.map .draw) x = .ok () x' := by
  induction ops generalizing x with
  | nil =>
    cases hb
    exact C56_win_drop u t x x' h
  | cons op ops ih =>
    unfold runOps at hb
    cases ho : op.run u x.buf with
    | none => rw [ho] at hb; cases hb
    | some b1 =>
      rw [ho] at hb
      rw [List.map_cons, wsGuardSession, sm_bind, wsCall_draw ho]
      exact ih { x with buf := b1 } hb h

/-- A window of two lines and three columns on which `b` is drawn; the console moves the cursor,
writes and moves the cursor back. -/
example :
    let x := (showOpen [⟨[], .ok⟩, ⟨[], .wrote 1⟩, ⟨[], .ok⟩]).s
    let b := (runOps demoEnv [.writeAt ⟨1, 1⟩ ['b'], .setCursor ⟨0, 0⟩] x.buf).getD x.buf
    (match wsRefresh demoEnv demoTerm { x with buf := b } with
    | .ok _ x' => decide (x'.w.os = [] ∧ x'.w.log.length = x.w.log.length + 3)
    | _ => false) = true := by decide +kernel

end Mortal
