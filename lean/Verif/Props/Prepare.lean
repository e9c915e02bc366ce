import Verif.Lemmas.Prepare
import Verif.Props.Input

/-!
# `prepare` and `restore` (C34–C36)
-/

namespace Mortal
open Spec

/-! ## C35: `prepare` establishes the requested mode -/

theorem modes_for (cfg : PrepareConfig) (t : Termios) : ModesFor cfg t (preparedTio cfg t) where
  input := by
    intro i hi
    unfold preparedTio
    simp only [INLCR, ICRNL, IXON]
    have e1 : ∀ i < 32, (0x40#32 ||| 0x100#32).getLsbD i = decide (i = 6 ∨ i = 8) := by decide
    have e2 : ∀ i < 32, (0x400#32).getLsbD i = decide (i = 10) := by decide
    cases cfg.enableControlFlow <;>
      simp only [Bool.false_eq_true, if_false, if_true, BitVec.getLsbD_and, BitVec.getLsbD_or,
        BitVec.getLsbD_not, e1 i hi, e2 i hi, hi, decide_true, Bool.true_and] <;>
      by_cases h1 : i = 6 ∨ i = 8 <;> by_cases h2 : i = 10 <;> simp [h1, h2]
  loc := by
    intro i hi
    unfold preparedTio
    simp only [ICANON, ECHO, ISIG]
    have e1 : ∀ i < 32, (0x2#32 ||| 0x8#32).getLsbD i = decide (i = 1 ∨ i = 3) := by decide
    have e2 : ∀ i < 32, (0x1#32).getLsbD i = decide (i = 0) := by decide
    cases cfg.blockSignals <;>
      simp only [Bool.false_eq_true, if_false, if_true, BitVec.getLsbD_and, BitVec.getLsbD_or,
        BitVec.getLsbD_not, e1 i hi, e2 i hi, hi, decide_true, Bool.true_and] <;>
      by_cases h1 : i = 1 ∨ i = 3 <;> by_cases h2 : i = 0 <;> simp [h1, h2]
  vmin := rfl
  vtime := rfl
  output := rfl
  control := rfl
  other := rfl

/-- **C35.** After a successful `prepare`, from any state and with any configuration: the modes are
those asked for, bit by bit, all other bits and settings unchanged; the handlers are installed
exactly for the signals to be handled; the signals to report are recorded; and the commands sent
are those that switch on mouse and keypad, if asked for and supported, and nothing else. -/
theorem C35_prepare_establishes (env : REnv) (cfg : PrepareConfig) (s s' : US) (p : PrepareState)
    (h : prepare env cfg s = .ok p s') :
    ModesFor cfg s.tio s'.tio ∧ HandlersFor cfg s.act s'.act ∧
    s'.report = cfg.reportSignals ∧
    s'.w.log = s.w.log
      ++ (if cfg.enableMouse && env.xterm then
            Out.text mouseOnText ::
              (if cfg.alwaysTrackMotion then [Out.text motionOnText] else [])
          else [])
      ++ (if cfg.enableKeypad && (env.w.db .keypadXmit).isSome then [Out.cap .keypadXmit []]
          else []) := by
  obtain ⟨e1, _⟩ := prepare_ok h
  refine ⟨?_, ?_, congrArg Core.report e1, core_log e1⟩
  · rw [core_tio e1]; exact modes_for cfg s.tio
  · intro g
    rw [core_act e1]
    exact preparedAct_get cfg s.act g

/-- **C35.** With the default configuration, as documented: keys that send signals and control flow
characters are input like others (bits 0 and 10 off), no signal is reported, and handlers are installed
for SIGCONT and SIGWINCH only; the keypad is switched on, if the terminal has one, and the mouse is not. -/
theorem C35_default (env : REnv) (s s' : US) (p : PrepareState) (h : prepare env .default s = .ok p s') :
    (∀ i < 32, s'.tio.lflag.getLsbD i = if i = 0 ∨ i = 1 ∨ i = 3 then false else s.tio.lflag.getLsbD i) ∧
    (∀ i < 32, s'.tio.iflag.getLsbD i = if i = 6 ∨ i = 8 ∨ i = 10 then false else s.tio.iflag.getLsbD i) ∧
    (∀ g, s'.act.get g = if g = .cont ∨ g = .winch then .ours else s.act.get g) ∧
    (∀ sig, s'.report.contains sig = false) ∧
    s'.w.log = s.w.log ++ if (env.w.db .keypadXmit).isSome then [Out.cap .keypadXmit []] else [] := by
  obtain ⟨m, hd, hr, hl⟩ := C35_prepare_establishes env .default s s' p h
  refine ⟨fun i hi => ?_, fun i hi => ?_, fun g => ?_, fun sig => ?_, ?_⟩
  · rw [m.loc i hi]
    by_cases h0 : i = 0
    · subst h0; rfl
    · by_cases h1 : i = 1 ∨ i = 3
      · rw [if_pos h1, if_pos (Or.inr h1)]
      · rw [if_neg h1, if_neg h0, if_neg (fun h => h.elim h0 h1)]
  · rw [m.input i hi]
    by_cases h0 : i = 10
    · subst h0; rfl
    · by_cases h1 : i = 6 ∨ i = 8
      · rw [if_pos h1, if_pos (by omega)]
      · rw [if_neg h1, if_neg h0, if_neg (by omega)]
  · have a : HandledUnder .default g ↔ (g = .cont ∨ g = .winch) := by
      cases g <;> simp [HandledUnder, PrepareConfig.default] <;> decide
    by_cases hg : g = .cont ∨ g = .winch
    · rw [if_pos hg]; exact (hd g).1 (a.mpr hg)
    · rw [if_neg hg]; exact (hd g).2 (fun h => hg (a.mp h))
  · rw [hr]; cases sig <;> rfl
  · rw [hl]
    show _ ++ [] ++ _ = _
    rw [List.append_nil]
    rfl

/-! ## C34: `restore` undoes `prepare` -/

/-- **C34 (partial).** A `prepare`, then anything well nested (other calls with whatever result,
including reads that answer SIGCONT by preparing again, and inner `prepare`/`restore` pairs to any
depth), then the matching `restore`: modes, handlers and the configuration that SIGCONT re-applies
are those before the `prepare`.

Missing: the set of signals to report is not put back (`C34_report_not_restored`), and mouse and
keypad modes only if they were off (`C34_device_modes_partial`, `C34_inner_disables_mouse`). -/
theorem C34_nested_partial (env : REnv) (cfg : PrepareConfig) (p : PrepareState)
    (s s1 s2 s3 : US) (h1 : prepare env cfg s = .ok p s1) (h2 : Balanced env AnyCall s1 s2)
    (h3 : restore env p s2 = .ok () s3) :
    s3.tio = s.tio ∧ s3.act = s.act ∧ s3.resume = s.resume :=
  balanced_nest h1 (balanced_stays h2 (coherent_prepared h1)).1 h3

/-- **C34.** Whole well-nested histories on a terminal that is not prepared leave modes and handlers
alone, and the terminal unprepared. -/
theorem C34_history (env : REnv) (s s' : US) (h0 : s.resume = none)
    (h : Balanced env AnyCall s s') : s'.tio = s.tio ∧ s'.act = s.act ∧ s'.resume = none := by
  obtain ⟨h1, h2⟩ := balanced_stays h (fun cfg hc => by rw [h0] at hc; cases hc)
  exact ⟨(balanced_idle h h0).1, h1, h2.trans h0⟩

/-- **C34 (partial).** If keypad, mouse and motion reporting are off before `prepare`, they are off
after the matching `restore`, provided the program's own output does not switch them. (A terminal
that can be switched to keypad mode must be able to be switched back.) -/
theorem C34_device_modes_partial (env : REnv) (cfg : PrepareConfig) (p : PrepareState)
    (s s1 s2 s3 : US)
    (hk : (env.w.db .keypadXmit).isSome → (env.w.db .keypadLocal).isSome)
    (h1 : prepare env cfg s = .ok p s1) (h2 : Balanced env NoModeOutput s1 s2)
    (h3 : restore env p s2 = .ok () s3)
    (hoff : devModes s.w.log = ⟨false, false, false⟩) :
    devModes s3.w.log = ⟨false, false, false⟩ := by
  have hn : Balanced env NoModeOutput s3 s3 := .done s3
  obtain ⟨e1, e2⟩ := prepare_ok h1
  have e3 := restore_ok h3
  subst e2
  have key : ∀ x : Part, x.off (devModes s3.w.log) := by
    intro x
    rw [core_log e3]
    refine restored_off _ _ hk fun hu => ?_
    show x.off (devModes s2.w.log)
    refine (balanced_off hk h2).2 ?_ ?_
    · intro c hc
      rw [core_resume e1] at hc
      cases hc
      exact hu
    · rw [core_log e1]
      refine prepared_off hu ?_
      show x.off (devModes s.w.log)
      rw [hoff]
      cases x
      · exact ⟨rfl, rfl⟩
      · exact rfl
  have hm := key .mouse
  have hp := key .keypad
  generalize devModes s3.w.log = d at hm hp
  obtain ⟨a, b, c⟩ := d
  obtain ⟨rfl, rfl⟩ := hm
  cases hp
  rfl

/-! ## C36: a failed `prepare` -/

/-- **C36 (partial).** If `prepare` fails, whatever the failure: the signals to report and the
configuration that SIGCONT re-applies are as before; the modes are as before or those asked for;
each handler is as before, or installed if it was to be.

Missing: they need not be as before (`C36_failed_prepare_changes`). -/
theorem C36_failed_prepare_partial (env : REnv) (cfg : PrepareConfig) (s s' : US) (e : IoErr)
    (h : prepare env cfg s = .err e s') :
    s'.report = s.report ∧ s'.resume = s.resume ∧
    (s'.tio = s.tio ∨ ModesFor cfg s.tio s'.tio) ∧
    ∀ g, s'.act.get g = s.act.get g ∨ (HandledUnder cfg g ∧ s'.act.get g = .ours) := by
  have hb := prepare_err h
  refine ⟨hb.report, hb.resume, ?_, hb.act⟩
  rcases hb.tio with h | h
  · exact Or.inl h
  · rw [h]; exact Or.inr (modes_for cfg s.tio)

/-- **C36 (partial).** If reading or setting the modes fails, nothing has changed. -/
theorem C36_first_steps_partial (env : REnv) (cfg : PrepareConfig) (s s' : US) (e : IoErr)
    (st : Step) (rest : List Step) (hs : s.sched = st :: rest)
    (hf : (∀ n, st.res ≠ .ok n) ∨ ∃ st2 rest2, rest = st2 :: rest2 ∧ ∀ n, st2.res ≠ .ok n)
    (h : prepare env cfg s = .err e s') :
    s'.tio = s.tio ∧ s'.act = s.act ∧ s'.report = s.report ∧ s'.resume = s.resume := by
  obtain ⟨s1, h1, hc, _⟩ := withWriter_err h
  have fin : core s1 = core s → s'.tio = s.tio ∧ s'.act = s.act ∧ s'.report = s.report ∧
      s'.resume = s.resume := fun e1 =>
    have e2 := hc.trans e1
    ⟨core_tio e2, core_act e2, congrArg Core.report e2, core_resume e2⟩
  apply fin
  have sys_fail : ∀ (s : US) (st : Step) (rest : List Step), s.sched = st :: rest →
      (∀ n, st.res ≠ .ok n) → ∀ s1, sysCall s ≠ .ok () s1 := by
    intro s st rest hs hf s1 hok
    obtain ⟨r, s2, h2, h3⟩ := M.bind_ok hok
    unfold tick at h2
    rw [hs] at h2
    cases h2
    cases hr : st.res with
    | ok n => exact hf n hr
    | eintr d e =>
      rw [hr] at h3
      obtain ⟨_, s3, h4, h5⟩ := M.bind_ok h3
      cases h5
    | fail => rw [hr] at h3; cases h3
  rcases M.bind_err h1 with h2 | ⟨old, s2, h2, h3⟩
  · exact tcgetattr_err h2
  · obtain ⟨hold, hc2⟩ := tcgetattr_ok h2
    obtain ⟨_, s2', h4, h5⟩ := M.bind_ok h2
    obtain ⟨_, _, hg, hp⟩ := M.bind_ok h5
    cases hg; cases hp
    rcases hf with hf | ⟨st2, rest2, hr2, hf⟩
    · exact absurd h4 (sys_fail s st rest hs hf s2)
    · have hs2 : s2.sched = st2 :: rest2 := by
        obtain ⟨r, t2, g2, g3⟩ := M.bind_ok h4
        unfold tick at g2
        rw [hs] at g2
        cases g2
        obtain ⟨x, sn, hd⟩ := deliverAll_eq st.before (s.advance st rest)
        rw [hd] at g3
        cases hr : st.res with
        | ok n => rw [hr] at g3; cases g3; exact hr2
        | eintr d e =>
          rw [hr] at g3
          obtain ⟨_, s3, g4, g5⟩ := M.bind_ok g3
          cases g5
        | fail => rw [hr] at g3; cases g3
      rcases M.bind_err h3 with h6 | ⟨_, s3, h6, h7⟩
      · cases h6
      · cases h6
        rcases M.bind_err h7 with h8 | ⟨_, s4, h8, _⟩
        · exact (tcsetattr_err h8).trans hc2
        · obtain ⟨_, s5, h9, _⟩ := M.bind_ok h8
          exact absurd h9 (sys_fail s2 st2 rest2 hs2 hf s5)

/-! ## Examples and refutations -/

/-- A configuration that uses everything. -/
def demoCfg : PrepareConfig :=
  { blockSignals := false, enableControlFlow := true, enableKeypad := true, enableMouse := true,
    alwaysTrackMotion := true, reportSignals := SignalSet.new.insert .interrupt }

/-- A state whose system calls all succeed and whose output is accepted. -/
def easyUS (n : Nat) : US :=
  { demoUS [] [] (List.replicate n (okStep 0)) with w := WS.new (List.replicate 9 .all) }

/-- The result and the state of a call that succeeds. -/
def okOf {α : Type} : Res α → Option (α × US)
  | .ok a s => some (a, s)
  | _ => none

/-- The state after a call that fails. -/
def errOf {α : Type} : Res α → Option (IoErr × US)
  | .err e s => some (e, s)
  | _ => none

theorem okOf_any {α : Type} {r : Res α} {f : α × US → Bool} (h : (okOf r).any f = true) :
    ∃ a s, r = .ok a s ∧ f (a, s) = true := by
  cases r with
  | ok a s => exact ⟨a, s, rfl, h⟩
  | err e s => cases h
  | stop w => cases h

theorem errOf_any {α : Type} {r : Res α} {f : IoErr × US → Bool} (h : (errOf r).any f = true) :
    ∃ e s, r = .err e s ∧ f (e, s) = true := by
  cases r with
  | err a s => exact ⟨a, s, rfl, h⟩
  | ok e s => cases h
  | stop w => cases h

/-- C35: `prepare` succeeds and changes modes and handlers. -/
example : ∃ p s', prepare demoEnvR demoCfg (easyUS 5) = .ok p s' ∧
    s'.tio ≠ (easyUS 5).tio ∧ s'.act.get .int = .ours ∧
    devModes s'.w.log = ⟨true, true, true⟩ := by
  obtain ⟨p, s, h, hf⟩ := okOf_any (r := prepare demoEnvR demoCfg (easyUS 5))
    (f := fun x => decide (x.2.tio ≠ (easyUS 5).tio ∧ x.2.act.get .int = .ours ∧
      devModes x.2.w.log = ⟨true, true, true⟩)) (by decide +kernel)
  exact ⟨p, s, h, of_decide_eq_true hf⟩

/-- C35: with the default configuration, too. -/
example : ∃ p s', prepare demoEnvR .default (easyUS 5) = .ok p s' ∧ s'.tio ≠ (easyUS 5).tio ∧
    devModes s'.w.log = ⟨true, false, false⟩ := by
  obtain ⟨p, s, h, hf⟩ := okOf_any (r := prepare demoEnvR .default (easyUS 5))
    (f := fun x => decide (x.2.tio ≠ (easyUS 5).tio ∧ devModes x.2.w.log = ⟨true, false, false⟩)) (by decide +kernel)
  exact ⟨p, s, h, of_decide_eq_true hf⟩

/-- C34: a history to which the theorems apply: prepare, prepare inside, restore, a SIGCONT handled
by `read_event`, and restore. -/
def nestOps : List UOp :=
  [.prepare demoCfg, .prepare .default, .restore, .readEvent none, .restore]

/-- Its schedule: a SIGCONT arrives before the read. -/
def nestUS : US :=
  { demoUS [] [] (List.replicate 5 (okStep 0) ++ List.replicate 4 (okStep 0) ++
      List.replicate 3 (okStep 0) ++ [⟨[.cont], .ok 0, none⟩] ++ List.replicate 5 (okStep 0) ++
      List.replicate 4 (okStep 0)) with w := WS.new (List.replicate 9 .all) }

/-- C34: it runs, all `prepare` and `restore` calls succeed and everything is as before. -/
example : (runU demoEnvR nestOps [] nestUS).map (fun (rs, st, s) => (rs, st, s.tio, s.act, s.seen)) =
    some ([.unit, .unit, .unit, .event none, .unit], [], nestUS.tio, nestUS.act, [.cont]) := by
  decide +kernel

/-- **C34 (refuted part).** The signals to report are not put back: after an inner `prepare` that
reports none and its `restore`, interrupts are no longer reported although they were before, and
although the crate's handler still swallows them. -/
theorem C34_report_not_restored :
    ∃ s0 p0 s p s1 s2, prepare demoEnvR demoCfg s0 = .ok p0 s ∧
      s.report.contains .interrupt = true ∧
      prepare demoEnvR .default s = .ok p s1 ∧ restore demoEnvR p s1 = .ok () s2 ∧
      s2.report.contains .interrupt = false ∧ s2.act.get .int = .ours := by
  obtain ⟨p0, s, h, hf⟩ := okOf_any (r := prepare demoEnvR demoCfg (easyUS 40))
    (f := fun (x : PrepareState × US) => decide (x.2.report.contains .interrupt = true) &&
      (okOf (prepare demoEnvR .default x.2)).any fun (y : PrepareState × US) =>
        (okOf (restore demoEnvR y.1 y.2)).any fun (z : Unit × US) =>
          decide (z.2.report.contains .interrupt = false ∧ z.2.act.get .int = .ours))
    (by decide +kernel)
  obtain ⟨h1, h2⟩ := Bool.and_eq_true_iff.1 hf
  obtain ⟨p, s1, h3, h4⟩ := okOf_any h2
  obtain ⟨_, s2, h5, h6⟩ := okOf_any h4
  obtain ⟨h7, h8⟩ := of_decide_eq_true h6
  exact ⟨easyUS 40, p0, s, p, s1, s2, h, of_decide_eq_true h1, h3, h5, h7, h8⟩

/-- **C34 (refuted part).** Nor are mouse and keypad modes: after an inner `prepare` that uses them
and its `restore` they are off although they were on before. -/
theorem C34_inner_disables_mouse :
    ∃ s0 p0 s p s1 s2, prepare demoEnvR demoCfg s0 = .ok p0 s ∧
      devModes s.w.log = ⟨true, true, true⟩ ∧
      prepare demoEnvR demoCfg s = .ok p s1 ∧ restore demoEnvR p s1 = .ok () s2 ∧
      devModes s2.w.log = ⟨false, false, false⟩ := by
  obtain ⟨p0, s, h, hf⟩ := okOf_any (r := prepare demoEnvR demoCfg (easyUS 40))
    (f := fun (x : PrepareState × US) => decide (devModes x.2.w.log = ⟨true, true, true⟩) &&
      (okOf (prepare demoEnvR demoCfg x.2)).any fun (y : PrepareState × US) =>
        (okOf (restore demoEnvR y.1 y.2)).any fun (z : Unit × US) =>
          decide (devModes z.2.w.log = ⟨false, false, false⟩))
    (by decide +kernel)
  obtain ⟨h1, h2⟩ := Bool.and_eq_true_iff.1 hf
  obtain ⟨p, s1, h3, h4⟩ := okOf_any h2
  obtain ⟨_, s2, h5, h6⟩ := okOf_any h4
  exact ⟨easyUS 40, p0, s, p, s1, s2, h, of_decide_eq_true h1, h3, h5, of_decide_eq_true h6⟩

/-- **C36 (refuted part).** When the last `sigaction` fails, `prepare` returns an error and leaves
raw mode on and the other handlers installed, with nothing to restore them from. -/
theorem C36_failed_prepare_changes :
    ∃ s s' e, prepare demoEnvR demoCfg s = .err e s' ∧ s'.tio ≠ s.tio ∧
      s.act.get .cont ≠ .ours ∧ s'.act.get .cont = .ours := by
  obtain ⟨e, s', h, hf⟩ := errOf_any
    (r := prepare demoEnvR demoCfg { easyUS 0 with
      sched := List.replicate 4 (okStep 0) ++ [⟨[], .fail, none⟩] })
    (f := fun (x : IoErr × US) => decide (x.2.tio ≠ (easyUS 0).tio ∧ (easyUS 0).act.get .cont ≠ .ours ∧
      x.2.act.get .cont = .ours)) (by decide +kernel)
  obtain ⟨h1, h2, h3⟩ := of_decide_eq_true hf
  exact ⟨_, s', e, h, h1, h2, h3⟩

/-- C36: a failure of the first step meets the hypotheses of the theorems. -/
example : ∃ e s', prepare demoEnvR demoCfg { easyUS 0 with sched := [⟨[], .fail, none⟩] } = .err e s' := by
  obtain ⟨e, s', h, _⟩ := errOf_any
    (r := prepare demoEnvR demoCfg { easyUS 0 with sched := [⟨[], .fail, none⟩] })
    (f := fun _ => true) (by decide +kernel)
  exact ⟨e, s', h⟩

end Mortal
