import Verif.Lemmas.Unwind
import Verif.Props.ScreenSession
import Verif.Props.WinSession

/-! # C64: panics while a screen is in use -/

namespace Mortal
open Spec

/-! ## Which locks are poisoned -/

/-- **C64.** Whatever any number of threads do with a terminal or a screen, a lock that is free is
poisoned just if some thread has panicked while it held the lock. -/
theorem C64_poisoned_iff (scr : Bool) (env : WEnv) (ws : WS) (tr : List (Nat × Label WS)) (s : Sys WS)
    (e : Exec env (Typed scr) (Sys.init ws) tr s) (l : LockId) (hf : holderOf l tr = none) :
    (s.mx l).poisoned = true ↔ PanickedHolding l tr :=
  poisoned_iff scr env ws tr s e l hf

/-! ## A panic in the thread that owns the screen -/

/-- **C64 (partial).** A screen is opened, used in any way for any length of time, and then its owner
panics, holding no guard of the terminal (it may be in a drawing call of the screen, which leaves the
data in any state); no thread has panicked before while it held one. Then the terminal is restored as
by the usual drop (C37): modes, handlers, configuration, screen and cursor are as before. Partial: the
panic must not happen while a guard is held; see `C64_guard_panic_aborts`. -/
theorem C64_panic_restores_partial (u : UEnv) (env : REnv) (cfg : PrepareConfig) (ops : List ScrOp)
    (rs : List URet) (scr : ScreenU) (d d' : SData) (s0 s1 s2 : US) (held p : LockId → Bool) (b : Bool)
    (hdb : GoodDB env.w) (hx : (env.w.db .exitCaMode).isSome)
    (h1 : screenNew env cfg s0 = .ok scr s1)
    (h2 : runScr u env ops scr.data s1 = some (rs, d, s2)) (hs : NoFailures s2)
    (hr : held .reader = false) (hw : held .writer = false)
    (pr : p .reader = false) (pw : p .writer = false) :
    broken (panicDrop u env scr.state held d' ⟨s2, p, b⟩) = none ∧
    (∀ e s', panicDrop u env scr.state held d' ⟨s2, p, b⟩ ≠ .err e s') ∧
    ∀ s', panicDrop u env scr.state held d' ⟨s2, p, b⟩ = .ok () s' →
      (s'.st.tio = s0.tio ∧ s'.st.act = s0.act ∧ s'.st.resume = s0.resume) ∧
      altScreen s'.st.w.log = false ∧
      ((env.w.db .cursorNormal).isSome → cursorModeOf s'.st.w.log = some .normal) ∧
      s'.st.w.pending = [] := by
  have e : panicDrop u env scr.state held d' ⟨s2, p, b⟩ =
      ofM (screenDrop env scr.state) ⟨s2, fun l => p l || held l, true⟩ := by
    unfold panicDrop
    rw [hw]
    exact screenDropP_clean env scr.state _ (by show (p _ || held _) = false; rw [pr, hr]; rfl)
      (by show (p _ || held _) = false; rw [pw, hw]; rfl)
  rw [e, ofM]
  dsimp only
  cases h3 : screenDrop env scr.state s2 with
  | ok a s3 =>
    refine ⟨rfl, fun _ _ h => (by cases h), fun s' h => ?_⟩
    cases h
    exact C37_session_partial u env cfg ops rs scr d s0 s1 s2 s3 hdb hx h1 h2 hs h3
  | err er s3 =>
    exfalso
    unfold screenDrop at h3
    rcases M.bind_err h3 with h5 | ⟨_, s5, h5, h6⟩
    · unfold printErr at h5; split at h5 <;> cases h5
    · unfold termDrop printErr at h6; split at h6 <;> cases h6
  | stop w => exact ⟨rfl, fun _ _ h => (by cases h), fun _ h => (by cases h)⟩

/-- **C64 (refuted part).** If the owner of a screen panics while it holds a guard of the screen, for
reading or for writing, or if a thread has done so before, the screen's drop aborts the process, and
not one system call has been made to put back modes and handlers: they stay as they were during the
session. The only thing done is the refresh of a write guard that was held. -/
theorem C64_guard_panic_aborts (u : UEnv) (env : REnv) (st : PrepareState) (d : SData) (s : PSt US)
    (held : LockId → Bool)
    (h : held .reader = true ∨ held .writer = true ∨ s.poisoned .reader = true ∨ s.poisoned .writer = true) :
    (∃ s', panicDrop u env st held d s = .abort s' ∧ (∃ w, s'.st = { s.st with w := w }) ∧
      (held .writer = false → s'.st = s.st)) ∨
    (held .writer = true ∧ ∃ r, guardDrop u env.w { d with w := s.st.w } = .stop r) := by
  have key : ∀ st' : US, screenDropP env st (s.unwound held st') = .abort (s.unwound held st') := by
    intro st'
    refine (screenDropP_poisoned env st _ ?_).1 rfl
    show (s.poisoned .reader || held .reader) = true ∨ (s.poisoned .writer || held .writer) = true
    rcases h with h | h | h | h <;> simp [h]
  unfold panicDrop
  cases hw : held .writer with
  | false =>
    refine Or.inl ⟨_, key _, ⟨s.st.w, rfl⟩, fun _ => rfl⟩
  | true =>
    simp only [if_true]
    cases hg : guardDrop u env.w { d with w := s.st.w } with
    | ok x => exact Or.inl ⟨_, key _, ⟨x.w, rfl⟩, nofun⟩
    | err e x => exact Or.inl ⟨_, key _, ⟨x.w, rfl⟩, nofun⟩
    | stop r => exact Or.inr ⟨by trivial, r, rfl⟩

/-! ## A panic in another thread -/

/-- **C64.** A screen has prepared the terminal; any number of threads use it, some may panic; when all
guards are gone the owner, which has not panicked, drops the screen. If nobody panicked holding a guard
(the reader's or the writer's lock), then, whatever happened to the lock of the data, the drop neither
panics nor aborts, and the terminal is as before the screen, provided that no system call fails and the
handlers are still those of the screen. -/
theorem C64_shared_drop (env : REnv) (ws : WS) (tr : List (Nat × Label WS)) (s : Sys WS) (cfg : PrepareConfig)
    (st : PrepareState) (s0 s1 us : US) (hdb : GoodDB env.w) (hx : (env.w.db .exitCaMode).isSome)
    (e : Exec env.w (Typed true) (Sys.init ws) tr s) (hf : ∀ l, holderOf l tr = none)
    (hr : ¬ PanickedHolding .reader tr) (hw : ¬ PanickedHolding .writer tr)
    (h1 : prepare env cfg s0 = .ok st s1) (h2 : us.act = s1.act) (hs : NoFailures us) :
    broken (screenDropP env st ⟨us, fun l => (s.mx l).poisoned, false⟩) = none ∧
    ∀ s', screenDropP env st ⟨us, fun l => (s.mx l).poisoned, false⟩ = .ok () s' →
      (s'.st.tio = s0.tio ∧ s'.st.act = s0.act ∧ s'.st.resume = s0.resume) ∧
      altScreen s'.st.w.log = false ∧
      ((env.w.db .cursorNormal).isSome → cursorModeOf s'.st.w.log = some .normal) ∧
      s'.st.w.pending = [] := by
  have f : ∀ l, ¬ PanickedHolding l tr → (s.mx l).poisoned = false := fun l hl =>
    Bool.eq_false_iff.2 fun x => hl ((C64_poisoned_iff true env.w ws tr s e l (hf l)).1 x)
  rw [screenDropP_clean env st ⟨us, fun l => (s.mx l).poisoned, false⟩ (f _ hr) (f _ hw), ofM]
  dsimp only
  cases h3 : screenDrop env st us with
  | ok a s3 =>
    refine ⟨rfl, fun s' h => ?_⟩
    cases h
    exact dropped hdb hx h1 h2 hs h3
  | err er s3 => exact ⟨rfl, fun _ h => (by cases h)⟩
  | stop w => exact ⟨rfl, fun _ h => (by cases h)⟩

/-- **C64 (refuted part).** If some thread panicked holding a guard, the drop of the screen panics; it
does not put back modes, handlers or configuration. If the guard was one for writing, the process is
aborted in the end (the terminal's drop panics, too); otherwise at most the cursor is shown again. -/
theorem C64_shared_drop_panics (env : REnv) (ws : WS) (tr : List (Nat × Label WS)) (s : Sys WS)
    (e : Exec env.w (Typed true) (Sys.init ws) tr s) (hf : ∀ l, holderOf l tr = none)
    (st : PrepareState) (us : US) :
    (PanickedHolding .writer tr →
      ∃ p, screenDropP env st ⟨us, fun l => (s.mx l).poisoned, false⟩ = .abort ⟨us, p, true⟩) ∧
    (PanickedHolding .reader tr → ¬ PanickedHolding .writer tr →
      (∃ s', screenDropP env st ⟨us, fun l => (s.mx l).poisoned, false⟩ = .panic s' ∧
        ∃ w, s'.st = { us with w := w }) ∨
      ∃ w, screenDropP env st ⟨us, fun l => (s.mx l).poisoned, false⟩ = .stop w) := by
  have f := fun l => C64_poisoned_iff true env.w ws tr s e l (hf l)
  refine ⟨fun h => ?_, fun h h' => ?_⟩
  · have hp := (f _).2 h
    exact (screenDropP_poisoned env st ⟨us, fun l => (s.mx l).poisoned, false⟩ (Or.inr hp)).2.1 rfl hp
  · have hp := (f _).2 h
    exact (screenDropP_poisoned env st ⟨us, fun l => (s.mx l).poisoned, false⟩ (Or.inl hp)).2.2 rfl
      (Bool.eq_false_iff.2 fun x => h' ((f _).1 x))

/-! ## Windows -/

/-- **C64 (partial).** On Windows: a screen is opened and drawn on in any way whatever; its owner panics
without holding a guard of the terminal, and nobody has panicked with one before. If no call fails, the
console is as before (C52). Partial as above. -/
theorem C64_win_panic_restores_partial (u : UEnv) (t : WTerm) (cfg : PrepareConfig) (s s1 s2 : WinSt)
    (s3 : PSt WinSt) (x : WScreen) (d d' : SData) (c c1 c2 : Con) (D1 D2 : List WEv)
    (held p : LockId → Bool) (b : Bool) (hc : c.Sane t.inH) (hk : s.outH ≠ t.inH)
    (h1 : winScreenNew t cfg s = .ok (x, d) s1) (hl1 : s1.log = s.log ++ D1)
    (hr1 : c.Runs u t.inH D1) (hp1 : c.play u t.inH D1 = some c1)
    (hc2 : SameElse s1.outH c1 c2) (hs2 : s2.outH = s1.outH)
    (hr : held .reader = false) (hw : held .writer = false)
    (pr : p .reader = false) (pw : p .writer = false)
    (h2 : winPanicDrop u t x held d' ⟨s2, p, b⟩ = .ok () s3) (hl2 : s3.st.log = s2.log ++ D2)
    (hr2 : c2.Runs u t.inH D2) (hn : NoFailure D2) :
    ∃ c3, c2.play u t.inH D2 = some c3 ∧ c3.active = s.outH ∧ s3.st.outH = s.outH ∧
      c3.inMode = c.inMode ||| 0x80 ∧ c3.handlers = c.handlers ∧
      c3.outs = fun j => if j = s.outH then (c.outs j).map (OutBuf.released t) else c.outs j := by
  have e : winPanicDrop u t x held d' ⟨s2, p, b⟩ =
      ofW (winScreenDrop t x) ⟨s2, fun l => p l || held l, true⟩ := by
    unfold winPanicDrop
    rw [hw]
    exact winScreenDropP_clean t x _ (by show (p _ || held _) = false; rw [pr, hr]; rfl)
      (by show (p _ || held _) = false; rw [pw, hw]; rfl)
  rw [e, ofW] at h2
  dsimp only at h2
  cases h3 : winScreenDrop t x s2 with
  | ok a s' =>
    rw [h3] at h2
    cases h2
    exact C52_session u t cfg s s1 s2 s' x d c c1 c2 D1 D2 hc hk h1 hl1 hr1 hp1 hc2 hs2 h3 hl2 hr2 hn
  | err er s' => rw [h3] at h2; cases h2
  | stop w => rw [h3] at h2; cases h2

/-- **C64 (refuted part).** On Windows, too: a panic while a guard is held ends in an abort, and the
screen's drop has not made a single call of the console. -/
theorem C64_win_guard_panic_aborts (u : UEnv) (t : WTerm) (x : WScreen) (d : SData) (s : PSt WinSt)
    (held : LockId → Bool)
    (h : held .reader = true ∨ held .writer = true ∨ s.poisoned .reader = true ∨ s.poisoned .writer = true) :
    (∃ s', winPanicDrop u t x held d s = .abort s' ∧
      ((held .writer = false ∧ s'.st = s.st) ∨
        ∃ y, wsGuardDrop u t { d with w := s.st } = .ok () y ∧ s'.st = y.w)) ∨
    (held .writer = true ∧ ∃ r, wsGuardDrop u t { d with w := s.st } = .stop r) := by
  have key : ∀ st' : WinSt, winScreenDropP t x (s.unwound held st') = .abort (s.unwound held st') := by
    intro st'
    refine winScreenDropP_poisoned t x _ rfl ?_
    show (s.poisoned .reader || held .reader) = true ∨ (s.poisoned .writer || held .writer) = true
    rcases h with h | h | h | h <;> simp [h]
  unfold winPanicDrop
  cases hw : held .writer with
  | false => exact Or.inl ⟨_, key _, Or.inl ⟨rfl, rfl⟩⟩
  | true =>
    simp only [if_true]
    cases hg : wsGuardDrop u t { d with w := s.st } with
    | ok a y => exact Or.inl ⟨_, key _, Or.inr ⟨y, rfl, rfl⟩⟩
    | err er y =>
      exfalso
      unfold wsGuardDrop SM.ignore at hg
      split at hg
      · cases hg
      · rename_i h'; exact h' er y hg
    | stop r => exact Or.inr ⟨by trivial, r, rfl⟩

/-! ## Witnesses -/

/-- A session that ends in a panic of the owner, who holds `held`. -/
def panicSession (held : LockId → Bool) (ops : List ScrOp) (s0 : US) : Option (Bool × US × US) := do
  let (scr, s1) ← okOf (screenNew demoEnvR demoCfg s0)
  let (_, d, s2) ← runScr demoEnv demoEnvR ops scr.data s1
  match panicDrop demoEnv demoEnvR scr.state held d ⟨s2, fun _ => false, false⟩ with
  | .ok _ s => some (true, s2, s.st)
  | .abort s => some (false, s2, s.st)
  | _ => none

/-- C64: the hypotheses of `C64_panic_restores_partial` are met by a session that draws, refreshes and
panics in a drawing call; everything is put back. -/
example : (panicSession (fun l => l = .data) [.draw (.writeAt ⟨0, 0⟩ ['a', 'b']), .refresh] (smallUS 60)).map
    (fun x => decide (x.1 = true ∧ x.2.1.tio ≠ (smallUS 0).tio ∧ (∀ st ∈ x.2.1.sched, st = okStep 0) ∧
      (∀ r ∈ x.2.1.w.os, r = .all) ∧ x.2.2.tio = (smallUS 0).tio ∧ x.2.2.act = (smallUS 0).act ∧
      altScreen x.2.2.w.log = false)) = some true := by decide +kernel

/-- **C64 (refuted part).** The same session, with a panic while a write guard is held: the process is
aborted with the terminal in raw mode, the handlers installed and the alternate screen in use. -/
theorem C64_guard_panic_refuted :
    (panicSession (fun l => l = .writer ∨ l = .data) [.draw (.writeAt ⟨0, 0⟩ ['a', 'b'])] (smallUS 60)).map
    (fun x => decide (x.1 = false ∧ (∀ st ∈ x.2.1.sched, st = okStep 0) ∧ (∀ r ∈ x.2.1.w.os, r = .all) ∧
      x.2.2.tio ≠ (smallUS 0).tio ∧ x.2.2.act ≠ (smallUS 0).act ∧ altScreen x.2.2.w.log = true)) =
    some true := by decide +kernel

/-- **C64 (refuted part).** A mouse report with coordinate 0, on a screen with mouse reporting: reading
it panics (C28) while `read_event` holds the read lock, so the process is aborted with the terminal
still in raw mode; this needs no guard held by the program, and no mistake in it. -/
theorem C64_report_aborts :
    (okOf (screenNew demoEnvR demoCfg (smallUS 60))).map (fun x =>
      panicked (screenReadEvent demoEnvR none x.1.data
          { x.2 with inBuf := [0x1b, 0x5b, 0x3c, 0x30, 0x3b, 0x30, 0x3b, 0x31, 0x4d] }) &&
        decide (x.2.tio ≠ (smallUS 0).tio)) = some true ∧
    ∀ u st d s, ∃ s', panicDrop u demoEnvR st (fun l => l = .reader) d s = .abort s' ∧ s'.st = s.st := by
  refine ⟨by decide +kernel, fun u st d s => ?_⟩
  rcases C64_guard_panic_aborts u demoEnvR st d s (fun l => l = .reader) (Or.inl rfl) with ⟨s', h1, _, h3⟩ | ⟨h, _⟩
  · exact ⟨s', h1, h3 rfl⟩
  · cases h

/-- C64: thread 1 takes a read guard and panics; then the reader's lock is poisoned, and free. -/
example (env : WEnv) (ws : WS) : ∃ tr s, Exec env (Typed true) (Sys.init ws) tr s ∧
    (∀ l, holderOf l tr = none) ∧ PanickedHolding .reader tr ∧ ¬ PanickedHolding .writer tr ∧
    (s.mx .reader).poisoned = true := by
  have nt : ∀ H : LockId → Bool, (∀ l ∈ ([] : List LockId), H l = true) := by intro H l hl; cases hl
  have ex := Exec.cons (t := 1) (env := env) (may := Typed true) (s := Sys.init ws)
    (.call (c := .sLockRead) rfl ⟨rfl, nt _⟩) (.cons (t := 1) (.acq rfl rfl)
    (.cons (t := 1) (.crash (f := fun w => .ok w) rfl) (.cons (t := 1) (.rel rfl) (.nil _))))
  refine ⟨_, _, ex, ?_, ⟨[(1, .call .sLockRead), (1, .acq .reader)], 1, [(1, .rel .reader)], rfl, rfl⟩, ?_, rfl⟩
  · intro l; cases l <;> rfl
  · intro h
    have := (C64_poisoned_iff true env ws _ _ ex .writer rfl).2 h
    cases this

end Mortal
