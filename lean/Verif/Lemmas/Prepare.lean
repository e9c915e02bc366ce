import Verif.Lemmas.Unix
import Verif.Lemmas.Writer
import Verif.Spec.Prepare

/-! # Lemmas about `prepare` and `restore` -/

namespace Mortal
open Spec

/-- The part of the state that `prepare` and `restore` are about. -/
structure Core where
  tio : Termios
  act : SigTab
  report : SignalSet
  resume : Option PrepareConfig
  log : List Out

/-- That part. -/
def core (s : US) : Core := ⟨s.tio, s.act, s.report, s.resume, s.w.log⟩

/-- The same core. -/
def SameCore (s s' : US) : Prop := core s' = core s

theorem SameCore.deliver (s : US) (sig : Sig) : SameCore s (Mortal.deliver s sig) := by
  unfold Mortal.deliver
  split <;> rfl

instance : SigFree SameCore where
  refl _ := rfl
  trans h1 h2 := Eq.trans h2 h1
  dl := SameCore.deliver
  sc _ _ _ _ := rfl
  wt _ _ := rfl
  clr _ := rfl

/-! ## The writer's log -/

theorem flush_log (s : WS) :
    match flush s with
    | .ok s' => s'.log = s.log
    | .err _ s' => s'.log = s.log
    | .stop _ => True := by
  unfold flush
  cases writeData s.pending s.os 0 s.dev with
  | blocked => trivial
  | done n os dev r =>
    dsimp only
    by_cases hn : n > s.pending.length
    · rw [if_pos hn]; trivial
    · rw [if_neg hn]; cases r <;> rfl

theorem flush_ok_log {s s' : WS} (h : flush s = .ok s') : s'.log = s.log := by
  have := flush_log s; rw [h] at this; exact this

theorem writeBytes_log (b : Bytes) (s : WS) :
    match writeBytes b s with
    | .ok s' => s'.log = s.log ++ [.text b]
    | .err _ s' => s'.log = s.log
    | .stop _ => True := by
  have key : ∀ s1 : WS, s1.log = s.log →
      match ((if b.length > s1.capacity then
        match writeData b s1.os 0 s1.dev with
        | .blocked => Outcome.stop .blocked
        | .done _ os dev none => .ok { s1 with os := os, dev := dev, log := s1.log ++ [.text b] }
        | .done _ os dev (some e) => .err e { s1 with os := os, dev := dev }
      else .ok { s1 with pending := s1.pending ++ b, log := s1.log ++ [.text b] }) : Outcome WS) with
      | .ok s' => s'.log = s.log ++ [.text b]
      | .err _ s' => s'.log = s.log
      | .stop _ => True := by
    intro s1 h1
    by_cases hb : b.length > s1.capacity
    · rw [if_pos hb]
      cases writeData b s1.os 0 s1.dev with
      | blocked => trivial
      | done n os dev r =>
        cases r with
        | none => show s1.log ++ _ = _; rw [h1]
        | some e => exact h1
    · rw [if_neg hb]
      show s1.log ++ _ = _
      rw [h1]
  unfold writeBytes
  by_cases hc : b.length + s.pending.length > s.capacity
  · rw [if_pos hc]
    have hf := flush_log s
    cases h : flush s with
    | ok s1 => rw [h] at hf; exact key s1 hf
    | err e s1 => rw [h] at hf; exact hf
    | stop w => trivial
  · rw [if_neg hc]
    exact key s rfl

theorem sessionEnd_log (env : WEnv) (s : WS) :
    match WOp.sessionEnd.run env s with
    | .ok s' => s'.log = s.log
    | .err _ s' => s'.log = s.log
    | .stop _ => True := by
  have h := flush_log s
  dsimp only [WOp.run]
  cases hf : flush s <;> rw [hf] at h <;> exact h

/-! ## Single steps -/

/-- `m` succeeds only with an effect `E` on the core, and fails only leaving it alone. -/
theorem sysCall_core (s : US) :
    match sysCall s with
    | .ok _ s' => core s' = core s
    | .err _ s' => core s' = core s
    | .stop _ => True := by
  have h := keeps_sysCall (R := SameCore) s
  cases hs : sysCall s <;> rw [hs] at h <;> exact h

theorem tcgetattr_ok {s s' : US} {t : Termios} (h : tcgetattr s = .ok t s') :
    t = s.tio ∧ core s' = core s := by
  obtain ⟨_, s1, h1, h2⟩ := M.bind_ok h
  obtain ⟨a, s2, h3, h4⟩ := M.bind_ok h2
  cases h3; cases h4
  have := sysCall_core s
  rw [h1] at this
  exact ⟨congrArg Core.tio this, this⟩

theorem tcgetattr_err {s s' : US} {e : IoErr} (h : tcgetattr s = .err e s') :
    core s' = core s := by
  rcases M.bind_err h with h1 | ⟨_, s1, h1, h2⟩
  · have := sysCall_core s
    rw [h1] at this
    exact this
  · cases h2

theorem tcsetattr_ok {s s' : US} {t : Termios} {u : Unit} (h : tcsetattr t s = .ok u s') :
    core s' = { core s with tio := t } := by
  obtain ⟨_, s1, h1, h2⟩ := M.bind_ok h
  cases h2
  have := sysCall_core s
  rw [h1] at this
  exact congrArg (fun c : Core => { c with tio := t }) this

theorem tcsetattr_err {s s' : US} {t : Termios} {e : IoErr} (h : tcsetattr t s = .err e s') :
    core s' = core s := by
  rcases M.bind_err h with h1 | ⟨_, s1, h1, h2⟩
  · have := sysCall_core s
    rw [h1] at this
    exact this
  · cases h2

theorem sigaction_ok {s s' : US} {g : Sig} {d o : Disp} (h : sigaction g d s = .ok o s') :
    o = s.act.get g ∧ core s' = { core s with act := s.act.set g d } := by
  obtain ⟨_, s1, h1, h2⟩ := M.bind_ok h
  obtain ⟨a, s2, h3, h4⟩ := M.bind_ok h2
  cases h3; cases h4
  have hc := sysCall_core s
  rw [h1] at hc
  have ha : s1.act = s.act := congrArg Core.act hc
  refine ⟨by rw [ha], ?_⟩
  have := congrArg (fun c : Core => { c with act := c.act.set g d }) hc
  exact this

theorem sigaction_err {s s' : US} {g : Sig} {d : Disp} {e : IoErr}
    (h : sigaction g d s = .err e s') : core s' = core s := by
  rcases M.bind_err h with h1 | ⟨_, s1, h1, h2⟩
  · have := sysCall_core s
    rw [h1] at this
    exact this
  · rcases M.bind_err h2 with h3 | ⟨_, s2, h3, h4⟩
    · cases h3
    · cases h3; cases h4

theorem liftW_ok {f : WS → Outcome WS} {s s' : US} {u : Unit} (h : liftW f s = .ok u s') :
    ∃ w, f s.w = .ok w ∧ s' = { s with w := w } := by
  unfold liftW at h
  cases hf : f s.w with
  | ok w => rw [hf] at h; cases h; exact ⟨w, rfl, rfl⟩
  | err e w => rw [hf] at h; cases h
  | stop r => rw [hf] at h; cases h

theorem liftW_err {f : WS → Outcome WS} {s s' : US} {e : IoErr} (h : liftW f s = .err e s') :
    ∃ w, f s.w = .err e w ∧ s' = { s with w := w } := by
  unfold liftW at h
  cases hf : f s.w with
  | ok w => rw [hf] at h; cases h
  | err e w => rw [hf] at h; cases h; exact ⟨w, rfl, rfl⟩
  | stop r => rw [hf] at h; cases h

theorem liftFlush_ok {s s' : US} {u : Unit} (h : liftW flush s = .ok u s') : core s' = core s := by
  obtain ⟨w, h1, rfl⟩ := liftW_ok h
  unfold core
  dsimp only
  rw [flush_ok_log h1]

theorem liftWrite_ok {b : Bytes} {s s' : US} {u : Unit} (h : liftW (writeBytes b) s = .ok u s') :
    core s' = { core s with log := s.w.log ++ [.text b] } := by
  obtain ⟨w, h1, rfl⟩ := liftW_ok h
  have := writeBytes_log b s.w
  rw [h1] at this
  unfold core
  dsimp only
  rw [this]

theorem liftExpand_ok {env : WEnv} {c : Cap} {ps : List Nat} {f : List Nat → Bytes × Bool}
    {s s' : US} {u : Unit} (h : liftW (expand env c ps f) s = .ok u s') :
    core s' = { core s with log := s.w.log ++ [.cap c ps] } := by
  obtain ⟨w, h1, rfl⟩ := liftW_ok h
  unfold expand at h1
  rcases hf : f ps with ⟨b, good⟩
  rw [hf] at h1
  dsimp only at h1
  cases good
  · cases h1
  · cases h1; rfl

theorem liftExpandOpt_ok {env : WEnv} {c : Cap} {ps : List Nat} {s s' : US} {u : Unit}
    (h : liftW (expandOpt env c ps) s = .ok u s') :
    core s' = { core s with
      log := s.w.log ++ if (env.db c).isSome then [.cap c ps] else [] } := by
  cases hc : env.db c with
  | none =>
    obtain ⟨w, h1, rfl⟩ := liftW_ok h
    unfold expandOpt at h1
    rw [hc] at h1
    cases h1
    simp [core]
  | some f =>
    have h' : liftW (expand env c ps f) s = .ok u s' := by
      rw [← h]
      unfold liftW expandOpt
      rw [hc]
    simpa using liftExpand_ok h'

/-- A core that differs in the log only. -/
def SameButLog (s s' : US) : Prop :=
  s'.tio = s.tio ∧ s'.act = s.act ∧ s'.report = s.report ∧ s'.resume = s.resume

instance : WFree SameButLog where
  refl _ := ⟨rfl, rfl, rfl, rfl⟩
  trans h1 h2 := ⟨h2.1.trans h1.1, h2.2.1.trans h1.2.1, h2.2.2.1.trans h1.2.2.1,
    h2.2.2.2.trans h1.2.2.2⟩
  updW _ _ := ⟨rfl, rfl, rfl, rfl⟩

instance : Ticks SameButLog where
  dl s g := by unfold deliver; split <;> exact ⟨rfl, rfl, rfl, rfl⟩
  sc _ _ _ _ := ⟨rfl, rfl, rfl, rfl⟩
  wt _ _ := ⟨rfl, rfl, rfl, rfl⟩

/-- Releasing the write lock does not touch the core. -/
theorem withWriter_ok {α : Type} {env : REnv} {m : M α} {s s' : US} {a : α}
    (h : withWriter env m s = .ok a s') : ∃ s1, m s = .ok a s1 ∧ core s' = core s1 ∧
      ∃ w, s' = { s1 with w := w } := by
  unfold withWriter at h
  cases hm : m s with
  | ok b s1 =>
    rw [hm] at h
    obtain ⟨_, s2, h1, h2⟩ := M.bind_ok h
    cases h2
    obtain ⟨w, h3, rfl⟩ := liftW_ok h1
    have := sessionEnd_log env.w s1.w
    rw [h3] at this
    exact ⟨s1, rfl, by unfold core; dsimp only; rw [this], w, rfl⟩
  | err e s1 =>
    rw [hm] at h
    obtain ⟨_, s2, h1, h2⟩ := M.bind_ok h
    cases h2
  | stop w => rw [hm] at h; cases h

theorem sessionEnd_not_err (env : WEnv) (s s' : WS) (e : IoErr) :
    WOp.sessionEnd.run env s ≠ .err e s' := by
  dsimp only [WOp.run]
  cases flush s <;> simp

theorem withWriter_err {α : Type} {env : REnv} {m : M α} {s s' : US} {e : IoErr}
    (h : withWriter env m s = .err e s') : ∃ s1, m s = .err e s1 ∧ core s' = core s1 ∧
      ∃ w, s' = { s1 with w := w } := by
  unfold withWriter at h
  cases hm : m s with
  | ok b s1 =>
    rw [hm] at h
    rcases M.bind_err h with h1 | ⟨_, s2, h1, h2⟩
    · obtain ⟨w, h3, rfl⟩ := liftW_err h1
      exact absurd h3 (sessionEnd_not_err _ _ _ _)
    · cases h2
  | err e' s1 =>
    rw [hm] at h
    rcases M.bind_err h with h1 | ⟨_, s2, h1, h2⟩
    · obtain ⟨w, h3, rfl⟩ := liftW_err h1
      exact absurd h3 (sessionEnd_not_err _ _ _ _)
    · cases h2
      obtain ⟨w, h3, rfl⟩ := liftW_ok h1
      have := sessionEnd_log env.w s1.w
      rw [h3] at this
      exact ⟨s1, rfl, by unfold core; dsimp only; rw [this], w, rfl⟩
  | stop w => rw [hm] at h; cases h

/-! ## Handlers -/

theorem get_set_same (t : SigTab) (g : Sig) (d : Disp) : (t.set g d).get g = d := by
  cases g <;> rfl

theorem get_set_other (t : SigTab) {g g' : Sig} (d : Disp) (h : g' ≠ g) :
    (t.set g d).get g' = t.get g' := by
  cases g <;> cases g' <;> first | rfl | exact absurd rfl h

theorem sigTab_ext {a b : SigTab} (h : ∀ g, a.get g = b.get g) : a = b := by
  cases a; cases b
  have h1 := h .cont
  have h2 := h .winch
  have h3 := h .int
  have h4 := h .tstp
  have h5 := h .quit
  simp only [SigTab.get] at h1 h2 h3 h4 h5
  simp [h1, h2, h3, h4, h5]

/-! ## Mouse and keypad -/

/-- What turning on the mouse sends. -/
def mouseCmds (env : REnv) (cfg : PrepareConfig) : List Out :=
  if cfg.enableMouse && env.xterm then
    .text mouseOnText :: (if cfg.alwaysTrackMotion then [.text motionOnText] else [])
  else []

/-- What turning on the keypad sends. -/
def keypadCmds (env : REnv) (cfg : PrepareConfig) : List Out :=
  if cfg.enableKeypad && (env.w.db .keypadXmit).isSome then [.cap .keypadXmit []] else []

theorem enableMouse_text : XTERM_ENABLE_MOUSE = mouseOnText := by decide +kernel
theorem disableMouse_text : XTERM_DISABLE_MOUSE = mouseOffText := by decide +kernel
theorem enableMotion_text : XTERM_ENABLE_MOUSE_MOTION = motionOnText := by decide +kernel
theorem disableMotion_text : XTERM_DISABLE_MOUSE_MOTION = motionOffText := by decide +kernel

theorem mouseOn_ok {env : REnv} {cfg : PrepareConfig} {s s' : US} {b : Bool}
    (h : mouseOn env cfg s = .ok b s') : b = (cfg.enableMouse && env.xterm) ∧
      core s' = { core s with log := s.w.log ++ mouseCmds env cfg } := by
  unfold mouseOn at h
  unfold mouseCmds
  cases he : cfg.enableMouse with
  | false => rw [he] at h; cases h; simp [core]
  | true =>
    rw [he] at h
    rw [if_pos rfl] at h
    unfold enableMouse at h
    cases hx : env.xterm with
    | false => rw [hx] at h; cases h; simp [core]
    | true =>
      rw [hx] at h
      rw [if_pos rfl] at h
      obtain ⟨_, s1, h1, h2⟩ := M.bind_ok h
      obtain ⟨_, s2, h3, h4⟩ := M.bind_ok h2
      cases h4
      have e1 := liftWrite_ok h1
      rw [enableMouse_text] at e1
      cases ha : cfg.alwaysTrackMotion with
      | false => rw [ha] at h3; cases h3; exact ⟨rfl, by simp [e1]⟩
      | true =>
        rw [ha, if_pos rfl] at h3
        have e2 := liftWrite_ok h3
        rw [enableMotion_text, e1] at e2
        refine ⟨rfl, ?_⟩
        have hl : s1.w.log = s.w.log ++ [.text mouseOnText] := congrArg Core.log e1
        rw [e2, hl]
        simp

theorem keypadOn_ok {env : REnv} {cfg : PrepareConfig} {s s' : US} {b : Bool}
    (h : keypadOn env cfg s = .ok b s') :
    b = (cfg.enableKeypad && (env.w.db .keypadXmit).isSome) ∧
      core s' = { core s with log := s.w.log ++ keypadCmds env cfg } := by
  unfold keypadOn at h
  unfold keypadCmds
  cases he : cfg.enableKeypad with
  | false => rw [he] at h; cases h; simp [core]
  | true =>
    rw [he, if_pos rfl] at h
    unfold enableKeypad at h
    cases hx : env.w.db .keypadXmit with
    | none => rw [hx] at h; cases h; simp [core]
    | some f =>
      rw [hx] at h
      obtain ⟨_, s1, h1, h2⟩ := M.bind_ok h
      cases h2
      exact ⟨rfl, by simpa using liftExpand_ok h1⟩

theorem installIf_ok {c : Bool} {g : Sig} {s s' : US} {o : Option Disp}
    (h : installIf c g s = .ok o s') :
    o = (if c then some (s.act.get g) else none) ∧
      core s' = { core s with act := if c then s.act.set g .ours else s.act } := by
  unfold installIf at h
  cases c with
  | false => cases h; exact ⟨rfl, rfl⟩
  | true =>
    rw [if_pos rfl] at h
    obtain ⟨d, s1, h1, h2⟩ := M.bind_ok h
    cases h2
    obtain ⟨h3, h4⟩ := sigaction_ok h1
    exact ⟨by rw [h3]; rfl, h4⟩

/-! ## `prepare` -/

/-- The handlers after `prepare`. -/
def preparedAct (cfg : PrepareConfig) (t : SigTab) : SigTab :=
  let t := (t.set .cont .ours).set .winch .ours
  let t := if cfg.reportSignals.contains .interrupt then t.set .int .ours else t
  let t := if cfg.reportSignals.contains .suspend then t.set .tstp .ours else t
  if cfg.reportSignals.contains .quit then t.set .quit .ours else t

/-- The core after `prepare`. -/
def preparedCore (env : REnv) (cfg : PrepareConfig) (c : Core) : Core where
  tio := preparedTio cfg c.tio
  act := preparedAct cfg c.act
  report := cfg.reportSignals
  resume := some cfg
  log := c.log ++ mouseCmds env cfg ++ keypadCmds env cfg

/-- What `prepare` saves. -/
def savedState (env : REnv) (cfg : PrepareConfig) (c : Core) : PrepareState where
  oldTio := c.tio
  oldSigcont := some c.act.cont
  oldSigint := if cfg.reportSignals.contains .interrupt then some c.act.int else none
  oldSigtstp := if cfg.reportSignals.contains .suspend then some c.act.tstp else none
  oldSigquit := if cfg.reportSignals.contains .quit then some c.act.quit else none
  oldSigwinch := some c.act.winch
  restoreKeypad := cfg.enableKeypad && (env.w.db .keypadXmit).isSome
  restoreMouse := cfg.enableMouse && env.xterm
  prevResume := c.resume

theorem core_act {s : US} {c : Core} (h : core s = c) : s.act = c.act := congrArg Core.act h
theorem core_log {s : US} {c : Core} (h : core s = c) : s.w.log = c.log := congrArg Core.log h
theorem core_tio {s : US} {c : Core} (h : core s = c) : s.tio = c.tio := congrArg Core.tio h
theorem core_resume {s : US} {c : Core} (h : core s = c) : s.resume = c.resume :=
  congrArg Core.resume h

theorem prepareWithLock_ok {env : REnv} {cfg : PrepareConfig} {s s' : US} {p : PrepareState}
    (h : prepareWithLock env cfg s = .ok p s') :
    core s' = preparedCore env cfg (core s) ∧ p = savedState env cfg (core s) := by
  obtain ⟨old, s1, h1, h⟩ := M.bind_ok h
  obtain ⟨h1a, h1b⟩ := tcgetattr_ok h1
  obtain ⟨x, s1', hg, h⟩ := M.bind_ok h
  cases hg
  obtain ⟨_, s2, h2, h⟩ := M.bind_ok h
  have h2a := tcsetattr_ok h2
  obtain ⟨bm, s3, h3, h⟩ := M.bind_ok h
  obtain ⟨h3a, h3b⟩ := mouseOn_ok h3
  obtain ⟨bk, s4, h4, h⟩ := M.bind_ok h
  obtain ⟨h4a, h4b⟩ := keypadOn_ok h4
  obtain ⟨_, s5, h5, h⟩ := M.bind_ok h
  have h5a := liftFlush_ok h5
  obtain ⟨dc, s6, h6, h⟩ := M.bind_ok h
  obtain ⟨h6a, h6b⟩ := sigaction_ok h6
  obtain ⟨dw, s7, h7, h⟩ := M.bind_ok h
  obtain ⟨h7a, h7b⟩ := sigaction_ok h7
  obtain ⟨di, s8, h8, h⟩ := M.bind_ok h
  obtain ⟨h8a, h8b⟩ := installIf_ok h8
  obtain ⟨dt, s9, h9, h⟩ := M.bind_ok h
  obtain ⟨h9a, h9b⟩ := installIf_ok h9
  obtain ⟨dq, s10, h10, h⟩ := M.bind_ok h
  obtain ⟨h10a, h10b⟩ := installIf_ok h10
  obtain ⟨_, s11, h11, h⟩ := M.bind_ok h
  cases h11
  cases h
  rw [h1b] at h2a
  rw [core_log h2a, h2a] at h3b
  rw [core_log h3b, h3b] at h4b
  rw [h4b] at h5a
  rw [core_act h5a, h5a] at h6b
  rw [core_act h6b, h6b] at h7b
  rw [core_act h7b, h7b] at h8b
  rw [core_act h8b, h8b] at h9b
  rw [core_act h9b, h9b] at h10b
  have hr : s1.resume = (core s).resume := core_resume h1b
  constructor
  · have e : core { s10 with report := cfg.reportSignals, resume := some cfg } =
        { core s10 with report := cfg.reportSignals, resume := some cfg } := rfl
    rw [e, h10b, h1a]
    rfl
  · rw [h1a, h3a, h4a, h6a, h7a, h8a, h9a, h10a, core_act h5a, core_act h6b, core_act h7b,
      core_act h8b, core_act h9b, hr]
    unfold savedState
    cases cfg.reportSignals.contains .interrupt <;>
    cases cfg.reportSignals.contains .suspend <;>
    cases cfg.reportSignals.contains .quit <;> rfl

theorem prepare_ok {env : REnv} {cfg : PrepareConfig} {s s' : US} {p : PrepareState}
    (h : prepare env cfg s = .ok p s') :
    core s' = preparedCore env cfg (core s) ∧ p = savedState env cfg (core s) := by
  obtain ⟨s1, h1, h2, _⟩ := withWriter_ok h
  obtain ⟨h3, h4⟩ := prepareWithLock_ok h1
  exact ⟨h2.trans h3, h4⟩

/-! ## `restore` -/

/-- Put back one handler. -/
def putBack (g : Sig) (o : Option Disp) (t : SigTab) : SigTab :=
  match o with
  | some d => t.set g d
  | none => t

theorem restoreSig_ok {g : Sig} {o : Option Disp} {s s' : US} {u : Unit}
    (h : restoreSig g o s = .ok u s') :
    core s' = { core s with act := putBack g o s.act } := by
  unfold restoreSig at h
  cases o with
  | none => cases h; rfl
  | some d =>
    obtain ⟨_, s1, h1, h2⟩ := M.bind_ok h
    cases h2
    exact (sigaction_ok h1).2

/-- The core after `restore`. -/
def restoredCore (env : REnv) (p : PrepareState) (c : Core) : Core where
  tio := p.oldTio
  act := putBack .winch p.oldSigwinch (putBack .quit p.oldSigquit (putBack .tstp p.oldSigtstp
    (putBack .int p.oldSigint (putBack .cont p.oldSigcont c.act))))
  report := c.report
  resume := p.prevResume
  log := c.log ++ (if p.restoreMouse then [.text mouseOffText, .text motionOffText] else []) ++
    (if p.restoreKeypad && (env.w.db .keypadLocal).isSome then [.cap .keypadLocal []] else [])

theorem restoreWithLock_ok {env : REnv} {p : PrepareState} {s s' : US} {u : Unit}
    (h : restoreWithLock env p s = .ok u s') : core s' = restoredCore env p (core s) := by
  obtain ⟨_, s1, h1, h⟩ := M.bind_ok h
  cases h1
  obtain ⟨_, s2, h2, h⟩ := M.bind_ok h
  obtain ⟨_, s3, h3, h⟩ := M.bind_ok h
  obtain ⟨_, s4, h4, h⟩ := M.bind_ok h
  obtain ⟨_, s5, h5, h⟩ := M.bind_ok h
  obtain ⟨_, s6, h6, h⟩ := M.bind_ok h
  obtain ⟨_, s7, h7, h⟩ := M.bind_ok h
  obtain ⟨_, s8, h8, h⟩ := M.bind_ok h
  obtain ⟨_, s9, h9, h⟩ := M.bind_ok h
  have e2 : core s2 = { core s with
      resume := p.prevResume,
      log := s.w.log ++ if p.restoreMouse then [.text mouseOffText, .text motionOffText] else [] } := by
    cases hm : p.restoreMouse with
    | false => rw [hm] at h2; cases h2; simp [core]
    | true =>
      rw [hm, if_pos rfl] at h2
      obtain ⟨_, t1, g1, g2⟩ := M.bind_ok h2
      have a1 := liftWrite_ok g1
      have a2 := liftWrite_ok g2
      rw [disableMouse_text] at a1
      rw [disableMotion_text, core_log a1, a1] at a2
      rw [a2]
      simp [core]
  have e3 : core s3 = { core s2 with
      log := s2.w.log ++
        if p.restoreKeypad && (env.w.db .keypadLocal).isSome then [.cap .keypadLocal []] else [] } := by
    cases hm : p.restoreKeypad with
    | false => rw [hm] at h3; cases h3; simp [core]
    | true =>
      rw [hm, if_pos rfl] at h3
      have := liftExpandOpt_ok h3
      simpa using this
  have e4 := liftFlush_ok h4
  have e5 := tcsetattr_ok h5
  have e6 := restoreSig_ok h6
  have e7 := restoreSig_ok h7
  have e8 := restoreSig_ok h8
  have e9 := restoreSig_ok h9
  have e10 := restoreSig_ok h
  rw [core_log e2, e2] at e3
  rw [e3] at e4
  rw [e4] at e5
  rw [core_act e5, e5] at e6
  rw [core_act e6, e6] at e7
  rw [core_act e7, e7] at e8
  rw [core_act e8, e8] at e9
  rw [core_act e9, e9] at e10
  rw [e10]
  rfl

theorem restore_ok {env : REnv} {p : PrepareState} {s s' : US} {u : Unit}
    (h : restore env p s = .ok u s') : core s' = restoredCore env p (core s) := by
  obtain ⟨s1, h1, h2, _⟩ := withWriter_ok h
  exact h2.trans (restoreWithLock_ok h1)

/-! ## The handlers as functions -/

theorem preparedAct_get (cfg : PrepareConfig) (t : SigTab) (g : Sig) :
    (HandledUnder cfg g → (preparedAct cfg t).get g = .ours) ∧
    (¬ HandledUnder cfg g → (preparedAct cfg t).get g = t.get g) := by
  unfold preparedAct HandledUnder
  cases h1 : cfg.reportSignals.contains .interrupt <;>
  cases h2 : cfg.reportSignals.contains .suspend <;>
  cases h3 : cfg.reportSignals.contains .quit <;>
  cases g <;> simp [SigTab.set, SigTab.get]

theorem restore_prepare_act (env : REnv) (cfg : PrepareConfig) (c c' : Core)
    (h : ∀ g, ¬ HandledUnder cfg g → c'.act.get g = c.act.get g) :
    (restoredCore env (savedState env cfg c) c').act = c.act := by
  apply sigTab_ext
  intro g
  have hg := h g
  unfold HandledUnder at hg
  unfold restoredCore savedState putBack
  revert hg
  cases h1 : cfg.reportSignals.contains .interrupt <;>
  cases h2 : cfg.reportSignals.contains .suspend <;>
  cases h3 : cfg.reportSignals.contains .quit <;>
  cases g <;> simp [SigTab.set, SigTab.get]

/-! ## Failures -/

/-- At most the changes that `prepare` with `cfg` makes have been made to handlers and to what is
remembered. -/
def Within (cfg : PrepareConfig) (s s' : US) : Prop :=
  (∀ g, s'.act.get g = s.act.get g ∨ (HandledUnder cfg g ∧ s'.act.get g = .ours)) ∧
  (s'.resume = s.resume ∨ s'.resume = some cfg)

theorem Within.same {cfg : PrepareConfig} {s s' : US} (h1 : s'.act = s.act)
    (h2 : s'.resume = s.resume) : Within cfg s s' :=
  ⟨fun g => Or.inl (by rw [h1]), Or.inl h2⟩

instance (cfg : PrepareConfig) : WFree (Within cfg) where
  refl _ := Within.same rfl rfl
  trans := by
    rintro a b c ⟨h1, h2⟩ ⟨h3, h4⟩
    refine ⟨fun g => ?_, ?_⟩
    · rcases h3 g with h | h
      · rcases h1 g with h' | h'
        · exact Or.inl (h.trans h')
        · exact Or.inr ⟨h'.1, h.trans h'.2⟩
      · exact Or.inr h
    · rcases h4 with h | h
      · rcases h2 with h' | h'
        · exact Or.inl (h.trans h')
        · exact Or.inr (h.trans h')
      · exact Or.inr h
  updW _ _ := Within.same rfl rfl

instance (cfg : PrepareConfig) : Ticks (Within cfg) where
  dl s g := by unfold deliver; split <;> exact Within.same rfl rfl
  sc _ _ _ _ := Within.same rfl rfl
  wt _ _ := Within.same rfl rfl

theorem within_tio {cfg : PrepareConfig} (t : Termios) : Keeps (Within cfg) (tcsetattr t) :=
  keeps_sysCall.bind fun _ => Keeps.modifyS fun _ => Within.same rfl rfl

theorem within_sigaction {cfg : PrepareConfig} {g : Sig} (hg : HandledUnder cfg g) :
    Keeps (Within cfg) (sigaction g .ours) := by
  refine keeps_sysCall.bind fun _ => Keeps.getS.bind fun _ =>
    (Keeps.modifyS fun s => ⟨fun g' => ?_, Or.inl rfl⟩).bind fun _ => Keeps.pure _
  by_cases h : g' = g
  · subst h; exact Or.inr ⟨hg, get_set_same _ _ _⟩
  · exact Or.inl (get_set_other _ _ h)

theorem within_installIf {cfg : PrepareConfig} {c : Bool} {g : Sig}
    (hg : c = true → HandledUnder cfg g) : Keeps (Within cfg) (installIf c g) := by
  unfold installIf
  split
  · rename_i h; exact (within_sigaction (hg h)).bind fun _ => Keeps.pure _
  · exact Keeps.pure _

theorem keeps_mouseOn {R : US → US → Prop} [WFree R] (env : REnv) (cfg : PrepareConfig) :
    Keeps R (mouseOn env cfg) := by
  unfold mouseOn
  split
  · unfold enableMouse
    split
    · refine (keeps_liftW _).bind fun _ => Keeps.bind ?_ fun _ => Keeps.pure _
      split
      · exact keeps_liftW _
      · exact Keeps.pure _
    · exact Keeps.pure _
  · exact Keeps.pure _

theorem keeps_keypadOn {R : US → US → Prop} [WFree R] (env : REnv) (cfg : PrepareConfig) :
    Keeps R (keypadOn env cfg) := by
  unfold keypadOn
  split
  · unfold enableKeypad
    split
    · exact (keeps_liftW _).bind fun _ => Keeps.pure _
    · exact Keeps.pure _
  · exact Keeps.pure _

theorem within_prepareWithLock (env : REnv) (cfg : PrepareConfig) :
    Keeps (Within cfg) (prepareWithLock env cfg) :=
  (keeps_sysCall.bind fun _ => Keeps.getS.bind fun _ => Keeps.pure _).bind fun _ =>
    Keeps.getS.bind fun _ => (within_tio _).bind fun _ => (keeps_mouseOn env cfg).bind fun _ =>
    (keeps_keypadOn env cfg).bind fun _ => (keeps_liftW _).bind fun _ =>
    (within_sigaction (g := .cont) trivial).bind fun _ =>
    (within_sigaction (g := .winch) trivial).bind fun _ =>
    (within_installIf (g := .int) fun h => h).bind fun _ =>
    (within_installIf (g := .tstp) fun h => h).bind fun _ =>
    (within_installIf (g := .quit) fun h => h).bind fun _ =>
    (Keeps.modifyS fun _ => ⟨fun _ => Or.inl rfl, Or.inr rfl⟩).bind fun _ => Keeps.pure _

theorem within_prepare (env : REnv) (cfg : PrepareConfig) : Keeps (Within cfg) (prepare env cfg) :=
  keeps_withWriter env (within_prepareWithLock env cfg)

/-! ## Well-nested use -/

/-- What `resume` would install is installed. -/
def Coherent (s : US) : Prop :=
  ∀ cfg, s.resume = some cfg → ∀ g, HandledUnder cfg g → s.act.get g = .ours

/-- Handlers and the remembered configuration stay, if they fit together. -/
def Stays (s s' : US) : Prop := Coherent s → s'.act = s.act ∧ s'.resume = s.resume

theorem Stays.same {s s' : US} (h1 : s'.act = s.act) (h2 : s'.resume = s.resume) : Stays s s' :=
  fun _ => ⟨h1, h2⟩

theorem Coherent.stays {s s' : US} (h : Coherent s) (h1 : s'.act = s.act)
    (h2 : s'.resume = s.resume) : Coherent s' := by
  intro cfg hc g hg
  rw [h1]
  exact h cfg (h2 ▸ hc) g hg

instance : WFree Stays where
  refl _ := Stays.same rfl rfl
  trans := by
    intro a b c h1 h2 ha
    obtain ⟨e1, e2⟩ := h1 ha
    obtain ⟨e3, e4⟩ := h2 (ha.stays e1 e2)
    exact ⟨e3.trans e1, e4.trans e2⟩
  updW _ _ := Stays.same rfl rfl

instance : SigFree Stays where
  dl s g := by unfold deliver; split <;> exact Stays.same rfl rfl
  sc _ _ _ _ := Stays.same rfl rfl
  wt _ _ := Stays.same rfl rfl
  clr _ := Stays.same rfl rfl

theorem stays_of_within {cfg : PrepareConfig} {s s' : US} (hc : s.resume = some cfg)
    (h : Within cfg s s') : Stays s s' := by
  intro hco
  refine ⟨sigTab_ext fun g => ?_, ?_⟩
  · rcases h.1 g with e | ⟨hg, e⟩
    · exact e
    · rw [e, hco cfg hc g hg]
  · rcases h.2 with e | e
    · exact e
    · rw [e, hc]

theorem stays_resume (env : REnv) : Keeps Stays (resumeM env) := by
  intro s
  unfold resumeM
  rw [M.bind_apply]
  dsimp only [getS]
  cases hc : s.resume with
  | none => exact Frame.refl (R := Stays) s
  | some cfg =>
    dsimp only
    rw [M.bind_apply]
    have h := within_prepare env cfg s
    cases hp : prepare env cfg s with
    | ok p s1 => rw [hp] at h; exact stays_of_within hc h
    | err e s1 => rw [hp] at h; exact stays_of_within hc h
    | stop w => trivial

theorem stays_handleSignal (env : REnv) (sig : Signal) : Keeps Stays (handleSignal env sig) := by
  have hrep : Keeps Stays (do
      if (← getS).report.contains sig then pure (some (Event.signal sig)) else pure none) := by
    refine Keeps.getS.bind fun s => ?_
    split <;> exact Keeps.pure _
  cases sig
  case «continue» => exact (stays_resume env).bind fun _ => hrep
  case resize =>
    exact (keeps_withWriter env (keeps_sysCall.bind fun _ => Keeps.getS.bind fun _ =>
      Keeps.pure _)).bind fun _ => Keeps.pure _
  all_goals exact hrep

/-! ## Reading in general -/

/-- A relation that does not look at the input either. -/
class ReadFree (R : US → US → Prop) : Prop extends SigFree R where
  inp : ∀ s b i r, R s { s with inBuf := b, input := i, received := r }

instance : ReadFree Stays where
  inp _ _ _ _ := Stays.same rfl rfl

section
variable {R : US → US → Prop} [ReadFree R]

theorem keeps_sysRead (len : Nat) : Keeps R (sysRead len) := by
  refine keeps_tick.bind fun r => ?_
  cases r with
  | ok n =>
    exact Keeps.getS.bind fun _ =>
      (Keeps.modifyS fun s => ReadFree.inp s s.inBuf _ _).bind fun _ => Keeps.pure _
  | eintr d e =>
    exact (Keeps.modifyS fun s => Ticks.deliverAll d s).bind fun _ => Keeps.pure _
  | fail => exact Keeps.throwIo _

theorem keeps_readLoop (len n : Nat) : Keeps R (readLoop len n) := by
  induction n with
  | zero => exact Keeps.stop _
  | succ n ih =>
    refine (keeps_sysRead len).bind fun r => ?_
    cases r with
    | done b => exact Keeps.pure _
    | eintr e =>
      refine keeps_takeSignal.bind fun o => ?_
      cases o with
      | some g => exact Keeps.pure _
      | none => exact ih

theorem keeps_readInput (env : REnv) (len : Nat) (t : Option Nat) :
    Keeps R (readInput env len t) := by
  refine keeps_takeSignal.bind fun o => ?_
  cases o with
  | some g => exact Keeps.pure _
  | none =>
    refine (keeps_waitEvent env t).bind fun b => ?_
    cases b with
    | false => exact Keeps.pure _
    | true =>
      refine keeps_takeSignal.bind fun o => ?_
      cases o with
      | some g => exact Keeps.pure _
      | none => exact Keeps.ofState fun s => keeps_readLoop len _

theorem keeps_readIntoBuffer (env : REnv) (t : Option Nat) : Keeps R (readIntoBuffer env t) := by
  intro s
  have h := keeps_readInput (R := R) env (env.spare s.inBuf.length) t { s with inBuf := [] }
  have h0 : R s { s with inBuf := [] } := ReadFree.inp s [] s.input s.received
  have e : readIntoBuffer env t s =
      match readInput env (env.spare s.inBuf.length) t { s with inBuf := [] } with
      | .ok (.raw b) s' => .ok (.raw b) { s' with inBuf := s.inBuf ++ b }
      | .ok r s' => .ok r { s' with inBuf := s.inBuf }
      | .err e s' => .err e { s' with inBuf := s.inBuf }
      | .stop w => .stop w := rfl
  rw [e]
  have put : ∀ (s' : US) (b : Bytes), R { s with inBuf := [] } s' →
      R s { s' with inBuf := b } := fun s' b h =>
    Frame.trans (Frame.trans h0 h) (ReadFree.inp s' b s'.input s'.received)
  cases hr : readInput env (env.spare s.inBuf.length) t { s with inBuf := [] } with
  | stop w => trivial
  | err e s' => rw [hr] at h; exact put s' _ h
  | ok a s' => rw [hr] at h; cases a <;> exact put s' _ h

theorem keeps_tryReadM (env : REnv) : Keeps R (tryReadM env) := by
  refine Keeps.getS.bind fun s => ?_
  split
  · exact Keeps.panicM
  · exact Keeps.throwIo _
  · exact Keeps.pure _
  · exact (Keeps.modifyS fun s => ReadFree.inp s _ s.input s.received).bind fun _ => Keeps.pure _

theorem keeps_readEvent (env : REnv) (t : Option Nat)
    (hh : ∀ sig, Keeps R (handleSignal env sig)) : Keeps R (readEvent env t) := by
  refine (keeps_tryReadM env).bind fun o => ?_
  cases o with
  | some ev => exact Keeps.pure _
  | none =>
    refine (keeps_readIntoBuffer env t).bind fun r => ?_
    cases r with
    | nothing => exact Keeps.pure _
    | raw b => exact keeps_tryReadM env
    | event ev =>
      cases ev with
      | signal sig => exact hh sig
      | _ => exact Keeps.pure _

theorem keeps_readRaw (env : REnv) (len : Nat) (t : Option Nat)
    (hh : ∀ sig, Keeps R (handleSignal env sig)) : Keeps R (readRaw env len t) := by
  refine Keeps.getS.bind fun s => ?_
  dsimp only
  split
  · exact (Keeps.modifyS fun s => ReadFree.inp s _ s.input s.received).bind fun _ => Keeps.pure _
  · refine (keeps_readInput env len t).bind fun r => ?_
    cases r with
    | nothing => exact Keeps.pure _
    | raw b => exact Keeps.pure _
    | event ev =>
      cases ev with
      | signal sig =>
        refine (hh sig).bind fun o => ?_
        cases o <;> exact Keeps.pure _
      | _ => exact Keeps.pure _

end

/-- A relation kept by the methods is kept by a call. -/
theorem plain_call {R : US → US → Prop} {env : REnv} {op : UOp} {s s1 : US} {r : URet}
    {st : List PrepareState} (hp : IsPlainCall op) (h : UOp.run env st s op = some (r, st, s1))
    (hw : ∀ t, Keeps R (waitEvent env t)) (he : ∀ t, Keeps R (readEvent env t))
    (hr : ∀ n t, Keeps R (readRaw env n t))
    (ho : ∀ o, op = .write o → Keeps R (liftW (o.run env.w)) ∨ R s s1) : R s s1 := by
  have close : ∀ {α : Type} (f : α → URet) (m : M α), Keeps R m →
      (ret f (m s)).map (fun (r, s) => (r, st, s)) = some (r, st, s1) → R s s1 := by
    intro α f m hk he
    cases hm : m s with
    | ok a s2 => rw [hm] at he; cases he; exact hk.ok hm
    | err e s2 => rw [hm] at he; cases he; exact hk.err hm
    | stop w => rw [hm] at he; cases he
  cases op with
  | prepare cfg => exact hp.elim
  | restore => exact hp.elim
  | waitEvent t => exact close _ _ (hw t) h
  | readEvent t => exact close _ _ (he t) h
  | readRaw n t => exact close _ _ (hr n t) h
  | write o =>
    rcases ho o rfl with hk | hk
    · exact close _ _ hk h
    · exact hk

theorem stays_call {env : REnv} {op : UOp} {s s1 : US} {r : URet}
    {st : List PrepareState} (hp : IsPlainCall op) (h : UOp.run env st s op = some (r, st, s1)) :
    Stays s s1 :=
  plain_call hp h (keeps_waitEvent env) (fun t => keeps_readEvent env t (stays_handleSignal env))
    (fun n t => keeps_readRaw env n t (stays_handleSignal env)) (fun _ _ => Or.inl (keeps_liftW _))

/-- A prepared state is coherent. -/
theorem coherent_prepared {env : REnv} {cfg : PrepareConfig} {s s' : US} {p : PrepareState}
    (h : prepare env cfg s = .ok p s') : Coherent s' := by
  obtain ⟨h1, _⟩ := prepare_ok h
  intro c hc g hg
  rw [core_resume h1] at hc
  cases hc
  rw [core_act h1]
  exact (preparedAct_get cfg _ g).1 hg

theorem balanced_nest {env : REnv} {cfg : PrepareConfig} {p : PrepareState} {s s1 s2 s3 : US}
    (h1 : prepare env cfg s = .ok p s1) (h2 : s2.act = s1.act)
    (h3 : restore env p s2 = .ok () s3) :
    s3.tio = s.tio ∧ s3.act = s.act ∧ s3.resume = s.resume := by
  obtain ⟨e1, e2⟩ := prepare_ok h1
  have e3 := restore_ok h3
  subst e2
  refine ⟨core_tio e3, ?_, core_resume e3⟩
  rw [core_act e3]
  refine restore_prepare_act env cfg (core s) (core s2) fun g hg => ?_
  show s2.act.get g = s.act.get g
  rw [h2, core_act e1]
  exact (preparedAct_get cfg _ g).2 hg

theorem balanced_stays {env : REnv} {Q : UOp → US → US → Prop} {s s' : US}
    (h : Balanced env Q s s') : Stays s s' := by
  induction h with
  | done s => exact Frame.refl (R := Stays) s
  | call hp hr _ _ ih => exact Frame.trans (R := Stays) (stays_call hp hr) ih
  | nest h1 _ h3 _ ih1 ih2 =>
    obtain ⟨e1, _⟩ := ih1 (coherent_prepared h1)
    obtain ⟨_, e2, e3⟩ := balanced_nest h1 e1 h3
    exact Frame.trans (R := Stays) (Stays.same e2 e3) ih2

/-- An unprepared terminal keeps its modes. -/
def Idle (s s' : US) : Prop := s.resume = none → s'.tio = s.tio ∧ s'.resume = none

theorem Idle.same {s s' : US} (h1 : s'.tio = s.tio) (h2 : s'.resume = s.resume) : Idle s s' :=
  fun h => ⟨h1, h2.trans h⟩

instance : WFree Idle where
  refl _ := Idle.same rfl rfl
  trans := by
    intro a b c h1 h2 ha
    obtain ⟨e1, e2⟩ := h1 ha
    obtain ⟨e3, e4⟩ := h2 e2
    exact ⟨e3.trans e1, e4⟩
  updW _ _ := Idle.same rfl rfl

instance : ReadFree Idle where
  dl s g := by unfold deliver; split <;> exact Idle.same rfl rfl
  sc _ _ _ _ := Idle.same rfl rfl
  wt _ _ := Idle.same rfl rfl
  clr _ := Idle.same rfl rfl
  inp _ _ _ _ := Idle.same rfl rfl

theorem idle_handleSignal (env : REnv) (sig : Signal) : Keeps Idle (handleSignal env sig) := by
  have hrep : Keeps Idle (do
      if (← getS).report.contains sig then pure (some (Event.signal sig)) else pure none) := by
    refine Keeps.getS.bind fun s => ?_
    split <;> exact Keeps.pure _
  cases sig
  case «continue» =>
    refine Keeps.bind (fun s => ?_) fun _ => hrep
    unfold resumeM
    rw [M.bind_apply]
    dsimp only [getS]
    cases hc : s.resume with
    | none => exact Frame.refl (R := Idle) s
    | some cfg =>
      dsimp only
      cases hp : (do let _ ← prepare env cfg; pure () : M Unit) s with
      | ok p s1 => exact fun h => absurd (hc.symm.trans h) (by simp)
      | err e s1 => exact fun h => absurd (hc.symm.trans h) (by simp)
      | stop w => trivial
  case resize =>
    exact (keeps_withWriter env (keeps_sysCall.bind fun _ => Keeps.getS.bind fun _ =>
      Keeps.pure _)).bind fun _ => Keeps.pure _
  all_goals exact hrep

theorem idle_call {env : REnv} {op : UOp} {s s1 : US} {r : URet}
    {st : List PrepareState} (hp : IsPlainCall op) (h : UOp.run env st s op = some (r, st, s1)) :
    Idle s s1 :=
  plain_call hp h (keeps_waitEvent env) (fun t => keeps_readEvent env t (idle_handleSignal env))
    (fun n t => keeps_readRaw env n t (idle_handleSignal env)) (fun _ _ => Or.inl (keeps_liftW _))

theorem balanced_idle {env : REnv} {Q : UOp → US → US → Prop} {s s' : US}
    (h : Balanced env Q s s') : Idle s s' := by
  induction h with
  | done s => exact Frame.refl (R := Idle) s
  | call hp hr _ _ ih => exact Frame.trans (R := Idle) (idle_call hp hr) ih
  | nest h1 h2 h3 _ _ ih2 =>
    obtain ⟨e1, e2, e3⟩ := balanced_nest h1 (balanced_stays h2 (coherent_prepared h1)).1 h3
    exact Frame.trans (R := Idle) (Idle.same e1 e3) ih2

/-! ## Keypad and mouse modes -/

theorem devModes_snoc (l : List Out) (o : Out) : devModes (l ++ [o]) = modeStep (devModes l) o := by
  unfold devModes
  rw [List.foldl_append]
  rfl

/-- One of the two parts of the device's modes. -/
inductive Part
  | mouse | keypad

/-- That part is switched off. -/
def Part.off : Part → DevModes → Prop
  | .mouse, d => d.mouse = false ∧ d.motion = false
  | .keypad, d => d.keypad = false

/-- A configuration does not switch that part on. -/
def Part.unused (env : REnv) (cfg : PrepareConfig) : Part → Prop
  | .mouse => (cfg.enableMouse && env.xterm) = false
  | .keypad => (cfg.enableKeypad && (env.w.db .keypadXmit).isSome) = false

/-- The part stays off. -/
def OffKept (x : Part) (s s' : US) : Prop :=
  x.off (devModes s.w.log) → x.off (devModes s'.w.log)

theorem OffKept.same {x : Part} {s s' : US} (h : s'.w.log = s.w.log) : OffKept x s s' := by
  unfold OffKept
  rw [h]
  exact id

instance (x : Part) : ReadFree (OffKept x) where
  refl _ := OffKept.same rfl
  trans h1 h2 := fun h => h2 (h1 h)
  dl s g := by unfold deliver; split <;> exact OffKept.same rfl
  sc _ _ _ _ := OffKept.same rfl
  wt _ _ := OffKept.same rfl
  clr _ := OffKept.same rfl
  inp _ _ _ _ := OffKept.same rfl

section
variable {env : REnv} {x : Part}

theorem off_liftW {f : WS → Outcome WS}
    (hf : ∀ s, match f s with
      | .ok s' => x.off (devModes s.log) → x.off (devModes s'.log)
      | .err _ s' => x.off (devModes s.log) → x.off (devModes s'.log)
      | .stop _ => True) : Keeps (OffKept x) (liftW f) := by
  intro s
  have h := hf s.w
  unfold liftW
  cases hc : f s.w with
  | ok w => rw [hc] at h; exact h
  | err e w => rw [hc] at h; exact h
  | stop r => trivial

theorem off_flush : Keeps (OffKept x) (liftW flush) := by
  refine off_liftW fun s => ?_
  have h := flush_log s
  cases hc : flush s with
  | ok s' => rw [hc] at h; dsimp only at h ⊢; rw [h]; exact id
  | err e s' => rw [hc] at h; dsimp only at h ⊢; rw [h]; exact id
  | stop w => trivial

theorem off_dropWriter (e : WEnv) : Keeps (OffKept x) (dropWriter e) := by
  refine off_liftW fun s => ?_
  have h := sessionEnd_log e s
  cases hc : WOp.sessionEnd.run e s with
  | ok s' => rw [hc] at h; dsimp only at h ⊢; rw [h]; exact id
  | err e s' => rw [hc] at h; dsimp only at h ⊢; rw [h]; exact id
  | stop w => trivial

theorem off_write {b : Bytes} (hb : ∀ d, x.off d → x.off (modeStep d (.text b))) :
    Keeps (OffKept x) (liftW (writeBytes b)) := by
  refine off_liftW fun s => ?_
  have h := writeBytes_log b s
  cases hc : writeBytes b s with
  | ok s' => rw [hc] at h; dsimp only at h ⊢; rw [h, devModes_snoc]; exact hb _
  | err e s' => rw [hc] at h; dsimp only at h ⊢; rw [h]; exact id
  | stop w => trivial

theorem off_expand {e : WEnv} {c : Cap} {ps : List Nat} {f : List Nat → Bytes × Bool}
    (hb : ∀ d, x.off d → x.off (modeStep d (.cap c ps))) :
    Keeps (OffKept x) (liftW (expand e c ps f)) := by
  refine off_liftW fun s => ?_
  unfold expand
  rcases f ps with ⟨b, good⟩
  cases good
  · show x.off _ → x.off (devModes (s.log ++ [.junk b]))
    rw [devModes_snoc]
    exact id
  · show x.off _ → x.off (devModes (s.log ++ [.cap c ps]))
    rw [devModes_snoc]
    exact hb _

theorem off_withWriter {α : Type} {m : M α} (h : Keeps (OffKept x) m) :
    Keeps (OffKept x) (withWriter env m) := by
  intro s
  have h1 := h s
  unfold withWriter
  cases hc : m s with
  | ok a s1 =>
    rw [hc] at h1
    have h2 : Keeps (OffKept x) (do dropWriter env.w; pure a : M α) :=
      (off_dropWriter _).bind fun _ => Keeps.pure _
    have h3 := h2 s1
    dsimp only
    generalize (do dropWriter env.w; pure a : M α) s1 = r at h3 ⊢
    cases r with
    | ok b s2 => exact Frame.trans (R := OffKept x) h1 h3
    | err e s2 => exact Frame.trans (R := OffKept x) h1 h3
    | stop w => trivial
  | err e s1 =>
    rw [hc] at h1
    have h2 : Keeps (OffKept x) (do dropWriter env.w; throwIo e : M α) :=
      (off_dropWriter _).bind fun _ => Keeps.throwIo _
    have h3 := h2 s1
    dsimp only
    generalize (do dropWriter env.w; throwIo e : M α) s1 = r at h3 ⊢
    cases r with
    | ok b s2 => exact Frame.trans (R := OffKept x) h1 h3
    | err e s2 => exact Frame.trans (R := OffKept x) h1 h3
    | stop w => trivial
  | stop w => trivial

theorem off_mouseOn {cfg : PrepareConfig} (hu : x.unused env cfg) :
    Keeps (OffKept x) (mouseOn env cfg) := by
  unfold mouseOn
  split
  · rename_i he
    unfold enableMouse
    split
    · rename_i hx
      cases x with
      | mouse =>
        have : (cfg.enableMouse && env.xterm) = false := hu
        rw [he, hx] at this
        cases this
      | keypad =>
        refine (off_write ?_).bind fun _ => Keeps.bind ?_ fun _ => Keeps.pure _
        · intro d hd
          rw [enableMouse_text]
          exact hd
        · split
          · refine off_write ?_
            intro d hd
            rw [enableMotion_text]
            exact hd
          · exact Keeps.pure _
    · exact Keeps.pure _
  · exact Keeps.pure _

theorem off_keypadOn {cfg : PrepareConfig} (hu : x.unused env cfg) :
    Keeps (OffKept x) (keypadOn env cfg) := by
  unfold keypadOn
  split
  · rename_i he
    unfold enableKeypad
    split
    · rename_i f hf
      cases x with
      | mouse => exact (off_expand (x := .mouse) (c := .keypadXmit) (ps := []) fun d hd => hd).bind fun _ => Keeps.pure _
      | keypad =>
        have : (cfg.enableKeypad && (env.w.db .keypadXmit).isSome) = false := hu
        rw [he, hf] at this
        cases this
    · exact Keeps.pure _
  · exact Keeps.pure _

theorem off_sigaction (g : Sig) (d : Disp) : Keeps (OffKept x) (sigaction g d) := by
  refine keeps_sysCall.bind fun _ => Keeps.getS.bind fun _ =>
    (Keeps.modifyS ?_).bind fun _ => Keeps.pure _
  exact fun _ => OffKept.same rfl

theorem off_installIf (c : Bool) (g : Sig) : Keeps (OffKept x) (installIf c g) := by
  unfold installIf
  split
  · exact (off_sigaction _ _).bind fun _ => Keeps.pure _
  · exact Keeps.pure _

/-- `prepare` with a configuration that does not switch the part on. -/
theorem off_prepare {cfg : PrepareConfig} (hu : x.unused env cfg) :
    Keeps (OffKept x) (prepare env cfg) := by
  refine off_withWriter ?_
  refine (keeps_sysCall.bind fun _ => Keeps.getS.bind fun _ => Keeps.pure _).bind fun _ =>
    Keeps.getS.bind fun _ =>
    (keeps_sysCall.bind fun _ => Keeps.modifyS ?_).bind fun _ =>
    (off_mouseOn hu).bind fun _ => (off_keypadOn hu).bind fun _ => off_flush.bind fun _ =>
    (off_sigaction _ _).bind fun _ => (off_sigaction _ _).bind fun _ =>
    (off_installIf _ _).bind fun _ => (off_installIf _ _).bind fun _ =>
    (off_installIf _ _).bind fun _ => (Keeps.modifyS ?_).bind fun _ => Keeps.pure _
  · exact fun _ => OffKept.same rfl
  · exact fun _ => OffKept.same rfl

end

/-- The part stays off unless `resume` would switch it on, and what `resume` would do stays. -/
def OffStays (env : REnv) (x : Part) (s s' : US) : Prop :=
  s'.resume = s.resume ∧ ((∀ cfg, s.resume = some cfg → x.unused env cfg) → OffKept x s s')

theorem OffStays.same {env : REnv} {x : Part} {s s' : US} (h1 : s'.resume = s.resume)
    (h2 : s'.w.log = s.w.log) : OffStays env x s s' := ⟨h1, fun _ => OffKept.same h2⟩

instance (env : REnv) (x : Part) : ReadFree (OffStays env x) where
  refl _ := OffStays.same rfl rfl
  trans := by
    rintro a b c ⟨h1, h2⟩ ⟨h3, h4⟩
    refine ⟨h3.trans h1, fun h ho => h4 ?_ (h2 h ho)⟩
    intro cfg hc
    exact h cfg (h1 ▸ hc)
  dl s g := by unfold deliver; split <;> exact OffStays.same rfl rfl
  sc _ _ _ _ := OffStays.same rfl rfl
  wt _ _ := OffStays.same rfl rfl
  clr _ := OffStays.same rfl rfl
  inp _ _ _ _ := OffStays.same rfl rfl

theorem offStays_resume (env : REnv) (x : Part) : Keeps (OffStays env x) (resumeM env) := by
  intro s
  unfold resumeM
  rw [M.bind_apply]
  dsimp only [getS]
  cases hc : s.resume with
  | none => exact OffStays.same rfl rfl
  | some cfg =>
    dsimp only
    rw [M.bind_apply]
    have h := within_prepare env cfg s
    have res : ∀ s1, Within cfg s s1 → s1.resume = s.resume := by
      rintro s1 ⟨_, h | h⟩
      · exact h
      · rw [h, hc]
    cases hp : prepare env cfg s with
    | ok p s1 =>
      rw [hp] at h
      exact ⟨res s1 h, fun hu => (off_prepare (hu cfg hc)).ok hp⟩
    | err e s1 =>
      rw [hp] at h
      exact ⟨res s1 h, fun hu => (off_prepare (hu cfg hc)).err hp⟩
    | stop w => trivial

theorem offStays_termSize (env : REnv) (x : Part) : Keeps (OffStays env x) (termSize env) := by
  have h1 : Keeps (OffKept x) (termSize env) :=
    off_withWriter (keeps_sysCall.bind fun _ => Keeps.getS.bind fun _ => Keeps.pure _)
  have h2 : Keeps SameButLog (termSize env) :=
    keeps_withWriter env (keeps_sysCall.bind fun _ => Keeps.getS.bind fun _ => Keeps.pure _)
  intro s
  cases hp : termSize env s with
  | ok p s1 => exact ⟨(h2.ok hp).2.2.2, fun _ => h1.ok hp⟩
  | err e s1 => exact ⟨(h2.err hp).2.2.2, fun _ => h1.err hp⟩
  | stop w => trivial

theorem offStays_handleSignal (env : REnv) (x : Part) (sig : Signal) :
    Keeps (OffStays env x) (handleSignal env sig) := by
  have hrep : Keeps (OffStays env x) (do
      if (← getS).report.contains sig then pure (some (Event.signal sig)) else pure none) := by
    refine Keeps.getS.bind fun s => ?_
    split <;> exact Keeps.pure _
  cases sig
  case «continue» => exact (offStays_resume env x).bind fun _ => hrep
  case resize => exact (offStays_termSize env x).bind fun _ => Keeps.pure _
  all_goals exact hrep

theorem offStays_call {env : REnv} {x : Part} {op : UOp} {s s1 : US} {r : URet}
    {st : List PrepareState} (hp : IsPlainCall op) (h : UOp.run env st s op = some (r, st, s1))
    (hq : NoModeOutput op s s1) : OffStays env x s s1 := by
  refine plain_call hp h (keeps_waitEvent env)
    (fun t => keeps_readEvent env t (offStays_handleSignal env x))
    (fun n t => keeps_readRaw env n t (offStays_handleSignal env x)) fun o ho => Or.inr ?_
  subst ho
  have h2 : SameButLog s s1 := by
    have hk := keeps_liftW (R := SameButLog) (o.run env.w) s
    dsimp only [UOp.run] at h
    cases hm : liftW (o.run env.w) s with
    | ok a s2 => rw [hm] at h hk; cases h; exact hk
    | err e s2 => rw [hm] at h hk; cases h; exact hk
    | stop w => rw [hm] at h; cases h
  refine ⟨h2.2.2.2, fun _ ho => ?_⟩
  have hq' : devModes s1.w.log = devModes s.w.log := hq
  rw [hq']
  exact ho

/-- After `restore` the part is off, or nothing was sent that concerns it. -/
theorem restored_off {env : REnv} {x : Part} {cfg : PrepareConfig} (c0 c : Core)
    (hk : (env.w.db .keypadXmit).isSome → (env.w.db .keypadLocal).isSome)
    (h : x.unused env cfg → x.off (devModes c.log)) :
    x.off (devModes (restoredCore env (savedState env cfg c0) c).log) := by
  have off1 : ∀ l, Part.off .mouse (devModes (l ++ [.text mouseOffText, .text motionOffText])) := by
    intro l
    rw [List.append_cons, devModes_snoc, devModes_snoc]
    exact ⟨rfl, rfl⟩
  unfold restoredCore savedState
  dsimp only
  cases x with
  | mouse =>
    have h1 : Part.off .mouse (devModes (c.log ++ if (cfg.enableMouse && env.xterm) = true then
        [.text mouseOffText, .text motionOffText] else [])) := by
      cases hm : (cfg.enableMouse && env.xterm) with
      | false => rw [if_neg (by simp), List.append_nil]; exact h hm
      | true => rw [if_pos rfl]; exact off1 _
    by_cases hb : (cfg.enableKeypad && (env.w.db .keypadXmit).isSome &&
        (env.w.db .keypadLocal).isSome) = true
    · rw [if_pos hb, devModes_snoc]; exact h1
    · rw [if_neg hb, List.append_nil]; exact h1
  | keypad =>
    have h0 : ∀ l : List Out, (devModes (l ++ if (cfg.enableMouse && env.xterm) = true then
        [.text mouseOffText, .text motionOffText] else [])).keypad = (devModes l).keypad := by
      intro l
      split
      · rw [List.append_cons, devModes_snoc, devModes_snoc]; rfl
      · rw [List.append_nil]
    by_cases hn : (cfg.enableKeypad && (env.w.db .keypadXmit).isSome &&
        (env.w.db .keypadLocal).isSome) = true
    · rw [if_pos hn, devModes_snoc]; rfl
    · rw [if_neg hn, List.append_nil]
      show (devModes _).keypad = false
      rw [h0]
      refine h ?_
      show (cfg.enableKeypad && (env.w.db .keypadXmit).isSome) = false
      cases he : cfg.enableKeypad with
      | false => rfl
      | true =>
        cases hx : (env.w.db .keypadXmit).isSome with
        | false => rfl
        | true =>
          rw [he, hx, hk hx] at hn
          exact absurd rfl hn

theorem prepared_off {env : REnv} {x : Part} {cfg : PrepareConfig} {c : Core}
    (hu : x.unused env cfg) (h : x.off (devModes c.log)) :
    x.off (devModes (preparedCore env cfg c).log) := by
  show x.off (devModes (c.log ++ mouseCmds env cfg ++ keypadCmds env cfg))
  cases x with
  | mouse =>
    have hu' : (cfg.enableMouse && env.xterm) = false := hu
    unfold mouseCmds keypadCmds
    rw [hu', if_neg (by simp), List.append_nil]
    split
    · rw [devModes_snoc]; exact h
    · rw [List.append_nil]; exact h
  | keypad =>
    have hu' : (cfg.enableKeypad && (env.w.db .keypadXmit).isSome) = false := hu
    have hk : keypadCmds env cfg = [] := by unfold keypadCmds; rw [hu']; rfl
    rw [hk, List.append_nil]
    unfold mouseCmds
    split
    · split
      · rw [List.append_cons, devModes_snoc, devModes_snoc]; exact h
      · rw [devModes_snoc]; exact h
    · rw [List.append_nil]; exact h

theorem balanced_off {env : REnv} {x : Part} {s s' : US}
    (hk : (env.w.db .keypadXmit).isSome → (env.w.db .keypadLocal).isSome)
    (h : Balanced env NoModeOutput s s') : OffStays env x s s' := by
  induction h with
  | done s => exact OffStays.same rfl rfl
  | call hp hr hq _ ih => exact Frame.trans (offStays_call hp hr hq) ih
  | @nest cfg p s s1 s2 s3 s4 h1 hb h3 _ ih1 ih2 =>
    refine Frame.trans ?_ ih2
    obtain ⟨e1, e2⟩ := prepare_ok h1
    have e3 := restore_ok h3
    subst e2
    refine ⟨core_resume e3, fun _ ho => ?_⟩
    rw [core_log e3]
    refine restored_off _ _ hk fun hu => ?_
    show x.off (devModes s2.w.log)
    refine ih1.2 ?_ ?_
    · intro c hc
      rw [core_resume e1] at hc
      cases hc
      exact hu
    · rw [core_log e1]
      exact prepared_off hu ho

/-! ## Where a failed `prepare` can stop -/

/-- The state if `m` fails is related to the state before. -/
def ErrKeeps {α : Type} (R : US → US → Prop) (m : M α) : Prop :=
  ∀ s, match m s with
    | .err _ s' => R s s'
    | _ => True

theorem ErrKeeps.bind {α β : Type} {R : US → US → Prop} [Frame R] {m : M α} {f : α → M β}
    (hm : Keeps R m) (hf : ∀ a, ErrKeeps R (f a)) : ErrKeeps R (m >>= f) := by
  intro s
  have h1 := hm s
  rw [M.bind_apply]
  cases hc : m s with
  | ok a s1 =>
    rw [hc] at h1
    have h2 := hf a s1
    dsimp only at h1 ⊢
    generalize f a s1 = r at h2 ⊢
    cases r with
    | ok b s2 => trivial
    | err e s2 => exact Frame.trans (R := R) h1 h2
    | stop w => trivial
  | err e s1 => rw [hc] at h1; exact h1
  | stop w => trivial

/-- The state between the two ends of a `prepare` started in `s0`. -/
structure Between (cfg : PrepareConfig) (s0 s : US) : Prop where
  report : s.report = s0.report
  resume : s.resume = s0.resume
  tio : s.tio = s0.tio ∨ s.tio = preparedTio cfg s0.tio
  act : ∀ g, s.act.get g = s0.act.get g ∨ (HandledUnder cfg g ∧ s.act.get g = .ours)

/-- Being in between stays so. -/
def BetweenStays (cfg : PrepareConfig) (s0 s s' : US) : Prop :=
  Between cfg s0 s → Between cfg s0 s'

instance (cfg : PrepareConfig) (s0 : US) : WFree (BetweenStays cfg s0) where
  refl _ := id
  trans h1 h2 := fun h => h2 (h1 h)
  updW _ _ := fun h => ⟨h.report, h.resume, h.tio, h.act⟩

instance (cfg : PrepareConfig) (s0 : US) : Ticks (BetweenStays cfg s0) where
  dl s g := by unfold deliver; split <;> exact fun h => ⟨h.report, h.resume, h.tio, h.act⟩
  sc _ _ _ _ := fun h => ⟨h.report, h.resume, h.tio, h.act⟩
  wt _ _ := fun h => ⟨h.report, h.resume, h.tio, h.act⟩

theorem between_sigaction {cfg : PrepareConfig} {s0 : US} {g : Sig} (hg : HandledUnder cfg g) :
    Keeps (BetweenStays cfg s0) (sigaction g .ours) := by
  refine keeps_sysCall.bind fun _ => Keeps.getS.bind fun _ =>
    (Keeps.modifyS fun s h => ⟨h.report, h.resume, h.tio, fun g' => ?_⟩).bind fun _ => Keeps.pure _
  by_cases e : g' = g
  · subst e; exact Or.inr ⟨hg, get_set_same _ _ _⟩
  · show (s.act.set g .ours).get g' = _ ∨ _
    rw [get_set_other _ _ e]
    rcases h.act g' with h' | h'
    · exact Or.inl h'
    · exact Or.inr h'

theorem between_installIf {cfg : PrepareConfig} {s0 : US} {c : Bool} {g : Sig}
    (hg : c = true → HandledUnder cfg g) : Keeps (BetweenStays cfg s0) (installIf c g) := by
  unfold installIf
  split
  · rename_i h; exact (between_sigaction (hg h)).bind fun _ => Keeps.pure _
  · exact Keeps.pure _

theorem prepare_err {env : REnv} {cfg : PrepareConfig} {s s' : US} {e : IoErr}
    (h : prepare env cfg s = .err e s') : Between cfg s s' := by
  obtain ⟨s1, h1, _, w, rfl⟩ := withWriter_err h
  have start : Between cfg s s := ⟨rfl, rfl, Or.inl rfl, fun g => Or.inl rfl⟩
  have key : Between cfg s s1 := by
    rcases M.bind_err h1 with h2 | ⟨old, s2, h2, h3⟩
    · have := tcgetattr_err h2
      have hk : Keeps (BetweenStays cfg s) tcgetattr :=
        keeps_sysCall.bind fun _ => Keeps.getS.bind fun _ => Keeps.pure _
      exact hk.err h2 start
    · have hk : Keeps (BetweenStays cfg s) tcgetattr :=
        keeps_sysCall.bind fun _ => Keeps.getS.bind fun _ => Keeps.pure _
      have hs2 := hk.ok h2 start
      have hold := (tcgetattr_ok h2).1
      subst hold
      have hrest : ErrKeeps (BetweenStays cfg s) (do
          let prevResume := (← getS).resume
          tcsetattr (preparedTio cfg s.tio)
          let restoreMouse ← mouseOn env cfg
          let restoreKeypad ← keypadOn env cfg
          liftW flush
          let oldSigcont ← sigaction .cont .ours
          let oldSigwinch ← sigaction .winch .ours
          let oldSigint ← installIf (cfg.reportSignals.contains .interrupt) .int
          let oldSigtstp ← installIf (cfg.reportSignals.contains .suspend) .tstp
          let oldSigquit ← installIf (cfg.reportSignals.contains .quit) .quit
          modifyS fun s => { s with report := cfg.reportSignals, resume := some cfg }
          pure ({ oldTio := s.tio, oldSigcont := some oldSigcont, oldSigint := oldSigint,
                  oldSigtstp := oldSigtstp, oldSigquit := oldSigquit,
                  oldSigwinch := some oldSigwinch, restoreKeypad := restoreKeypad,
                  restoreMouse := restoreMouse, prevResume := prevResume } : PrepareState)) := by
        refine ErrKeeps.bind Keeps.getS fun _ => ErrKeeps.bind ?_ fun _ =>
          ErrKeeps.bind (keeps_mouseOn env cfg) fun _ =>
          ErrKeeps.bind (keeps_keypadOn env cfg) fun _ => ErrKeeps.bind (keeps_liftW _) fun _ =>
          ErrKeeps.bind (between_sigaction (g := .cont) trivial) fun _ =>
          ErrKeeps.bind (between_sigaction (g := .winch) trivial) fun _ =>
          ErrKeeps.bind (between_installIf (g := .int) fun h => h) fun _ =>
          ErrKeeps.bind (between_installIf (g := .tstp) fun h => h) fun _ =>
          ErrKeeps.bind (between_installIf (g := .quit) fun h => h) fun _ => fun _ => trivial
        exact keeps_sysCall.bind fun _ => Keeps.modifyS fun s' h =>
          ⟨h.report, h.resume, Or.inr rfl, h.act⟩
      have := hrest s2
      have e3 : (do
          let prevResume := (← getS).resume
          tcsetattr (preparedTio cfg s.tio)
          let restoreMouse ← mouseOn env cfg
          let restoreKeypad ← keypadOn env cfg
          liftW flush
          let oldSigcont ← sigaction .cont .ours
          let oldSigwinch ← sigaction .winch .ours
          let oldSigint ← installIf (cfg.reportSignals.contains .interrupt) .int
          let oldSigtstp ← installIf (cfg.reportSignals.contains .suspend) .tstp
          let oldSigquit ← installIf (cfg.reportSignals.contains .quit) .quit
          modifyS fun s => { s with report := cfg.reportSignals, resume := some cfg }
          pure ({ oldTio := s.tio, oldSigcont := some oldSigcont, oldSigint := oldSigint,
                  oldSigtstp := oldSigtstp, oldSigquit := oldSigquit,
                  oldSigwinch := some oldSigwinch, restoreKeypad := restoreKeypad,
                  restoreMouse := restoreMouse, prevResume := prevResume } : PrepareState) : M _) s2
          = .err e s1 := h3
      rw [e3] at this
      exact this hs2
  exact ⟨key.report, key.resume, key.tio, key.act⟩

end Mortal
