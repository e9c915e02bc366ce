import Verif.Lemmas.ScreenSession
import Verif.Spec.HowFar

/-! # How far `prepare` and `restore` get when they fail -/

namespace Mortal
open Spec

/-- An output that neither enters nor leaves the alternate screen. -/
def CaQuiet : Out → Prop
  | .cap .enterCaMode _ | .cap .exitCaMode _ => False
  | _ => True

/-- The log has only grown, by such outputs. -/
def QuietLog (s s' : US) : Prop := ∃ l, s'.w.log = s.w.log ++ l ∧ ∀ o ∈ l, CaQuiet o

theorem QuietLog.same {s s' : US} (h : s'.w.log = s.w.log) : QuietLog s s' :=
  ⟨[], by simp [h], by simp⟩

theorem QuietLog.trans {a b c : US} (h1 : QuietLog a b) (h2 : QuietLog b c) : QuietLog a c := by
  obtain ⟨l, e1, q1⟩ := h1
  obtain ⟨m, e2, q2⟩ := h2
  refine ⟨l ++ m, by rw [e2, e1, List.append_assoc], fun o ho => ?_⟩
  rcases List.mem_append.mp ho with ho | ho
  · exact q1 o ho
  · exact q2 o ho

theorem QuietLog.alt {s s' : US} (h : QuietLog s s') : altScreen s'.w.log = altScreen s.w.log := by
  obtain ⟨l, e, q⟩ := h
  rw [e]
  unfold altScreen
  rw [List.foldl_append]
  generalize List.foldl _ false s.w.log = b
  clear e
  induction l generalizing b with
  | nil => rfl
  | cons o l ih =>
    have hq := q o (by simp)
    rw [List.foldl_cons, ih (fun o ho => q o (by simp [ho]))]
    cases o with
    | cap c ps => cases c <;> first | rfl | exact hq.elim
    | text b => rfl
    | junk b => rfl

theorem liftFlush_err {s s' : US} {e : IoErr} (h : liftW flush s = .err e s') :
    core s' = core s := by
  obtain ⟨w, h1, rfl⟩ := liftW_err h
  have := flush_log s.w
  rw [h1] at this
  unfold core
  dsimp only
  rw [this]

theorem liftWrite_err {b : Bytes} {s s' : US} {e : IoErr}
    (h : liftW (writeBytes b) s = .err e s') : core s' = core s := by
  obtain ⟨w, h1, rfl⟩ := liftW_err h
  have := writeBytes_log b s.w
  rw [h1] at this
  unfold core
  dsimp only
  rw [this]

theorem liftExpandOpt_err {env : WEnv} {c : Cap} {ps : List Nat} {s s' : US} {e : IoErr}
    (h : liftW (expandOpt env c ps) s = .err e s') :
    ∃ b, core s' = { core s with log := s.w.log ++ [.junk b] } := by
  obtain ⟨w, h1, rfl⟩ := liftW_err h
  unfold expandOpt at h1
  cases hc : env.db c with
  | none => rw [hc] at h1; cases h1
  | some f =>
    rw [hc] at h1
    dsimp only at h1
    unfold expand at h1
    rcases hf : f ps with ⟨b, good⟩
    rw [hf] at h1
    cases good
    · cases h1; exact ⟨b, rfl⟩
    · cases h1

theorem restoreSig_err {g : Sig} {o : Option Disp} {s s' : US} {e : IoErr}
    (h : restoreSig g o s = .err e s') : core s' = core s := by
  unfold restoreSig at h
  cases o with
  | none => cases h
  | some d =>
    rcases M.bind_err h with h1 | ⟨_, s1, h1, h2⟩
    · exact sigaction_err h1
    · cases h2

/-- The dispositions to put back, in the order of the code. -/
def toPutBack (p : PrepareState) : List (Sig × Option Disp) :=
  [(.cont, p.oldSigcont), (.int, p.oldSigint), (.tstp, p.oldSigtstp), (.quit, p.oldSigquit),
   (.winch, p.oldSigwinch)]

/-- Putting back some. -/
def putBackAll (l : List (Sig × Option Disp)) (t : SigTab) : SigTab :=
  l.foldl (fun t x => putBack x.1 x.2 t) t

/-- A failed `restore`. -/
theorem restore_err {env : REnv} {p : PrepareState} {s s' : US} {e : IoErr}
    (h : restore env p s = .err e s') :
    s'.resume = p.prevResume ∧ s'.report = s.report ∧ QuietLog s s' ∧
    ((s'.tio = s.tio ∧ s'.act = s.act) ∨
     (s'.tio = p.oldTio ∧ ∃ k, k < 5 ∧ s'.act = putBackAll ((toPutBack p).take k) s.act)) := by
  obtain ⟨s1, h, hc, _⟩ := withWriter_err h
  suffices x : s1.resume = p.prevResume ∧ s1.report = s.report ∧ QuietLog s s1 ∧
      ((s1.tio = s.tio ∧ s1.act = s.act) ∨
       (s1.tio = p.oldTio ∧ ∃ k, k < 5 ∧ s1.act = putBackAll ((toPutBack p).take k) s.act)) by
    obtain ⟨x1, x2, x3, x4⟩ := x
    have hl : s'.w.log = s1.w.log := core_log hc
    refine ⟨(core_resume hc).trans x1, (congrArg Core.report hc).trans x2,
      x3.trans (QuietLog.same hl), ?_⟩
    rw [core_tio hc, core_act hc]
    exact x4
  clear hc
  rcases M.bind_err h with h | ⟨_, sa, h1, h⟩
  · cases h
  have key : ∀ (t t1 : US), t.resume = p.prevResume → t.report = s.report → QuietLog s t →
      t.tio = s.tio → t.act = s.act → core t1 = core t →
      (t1.resume = p.prevResume ∧ t1.report = s.report ∧ QuietLog s t1 ∧
      ((t1.tio = s.tio ∧ t1.act = s.act) ∨
       (t1.tio = p.oldTio ∧ ∃ k, k < 5 ∧ t1.act = putBackAll ((toPutBack p).take k) s.act))) := by
    intro t t1 a b c d e1 hc
    exact ⟨(core_resume hc).trans a, (congrArg Core.report hc).trans b,
      c.trans (QuietLog.same (core_log hc)), .inl ⟨(core_tio hc).trans d, (core_act hc).trans e1⟩⟩
  -- the mouse
  have a0 : sa.resume = p.prevResume ∧ sa.report = s.report ∧ QuietLog s sa ∧ sa.tio = s.tio ∧
      sa.act = s.act := by cases h1; exact ⟨rfl, rfl, QuietLog.same rfl, rfl, rfl⟩
  rcases M.bind_err h with h2 | ⟨_, sb, h2, h⟩
  · split at h2
    · rcases M.bind_err h2 with h3 | ⟨_, sb, h3, h4⟩
      · exact key sa s1 a0.1 a0.2.1 a0.2.2.1 a0.2.2.2.1 a0.2.2.2.2 (liftWrite_err h3)
      · have e1 := liftWrite_ok h3
        refine key sb s1 ((core_resume e1).trans a0.1) ((congrArg Core.report e1).trans a0.2.1)
          (a0.2.2.1.trans ⟨_, core_log e1, ?_⟩) ((core_tio e1).trans a0.2.2.2.1)
          ((core_act e1).trans a0.2.2.2.2) (liftWrite_err h4)
        intro o ho
        rw [List.mem_singleton.mp ho]; trivial
    · cases h2
  have b0 : sb.resume = p.prevResume ∧ sb.report = s.report ∧ QuietLog s sb ∧ sb.tio = s.tio ∧
      sb.act = s.act := by
    split at h2
    · obtain ⟨_, sc, h3, h4⟩ := M.bind_ok h2
      have e1 := liftWrite_ok h3
      have e2 := liftWrite_ok h4
      refine ⟨(core_resume e2).trans ((core_resume e1).trans a0.1),
        (congrArg Core.report e2).trans ((congrArg Core.report e1).trans a0.2.1),
        a0.2.2.1.trans (QuietLog.trans ⟨_, core_log e1, ?_⟩ ⟨_, core_log e2, ?_⟩),
        (core_tio e2).trans ((core_tio e1).trans a0.2.2.2.1),
        (core_act e2).trans ((core_act e1).trans a0.2.2.2.2)⟩
      all_goals
        intro o ho
        rw [List.mem_singleton.mp ho]; trivial
    · cases h2; exact a0
  clear h2 a0
  -- the keypad
  rcases M.bind_err h with h2 | ⟨_, sc, h2, h⟩
  · split at h2
    · obtain ⟨b, e1⟩ := liftExpandOpt_err h2
      refine ⟨(core_resume e1).trans b0.1, (congrArg Core.report e1).trans b0.2.1,
        b0.2.2.1.trans ⟨_, core_log e1, ?_⟩, .inl ⟨(core_tio e1).trans b0.2.2.2.1,
        (core_act e1).trans b0.2.2.2.2⟩⟩
      intro o ho
      rw [List.mem_singleton.mp ho]; trivial
    · cases h2
  have c0 : sc.resume = p.prevResume ∧ sc.report = s.report ∧ QuietLog s sc ∧ sc.tio = s.tio ∧
      sc.act = s.act := by
    split at h2
    · have e1 := liftExpandOpt_ok h2
      refine ⟨(core_resume e1).trans b0.1, (congrArg Core.report e1).trans b0.2.1,
        b0.2.2.1.trans ⟨_, core_log e1, ?_⟩, (core_tio e1).trans b0.2.2.2.1,
        (core_act e1).trans b0.2.2.2.2⟩
      intro o ho
      split at ho
      · rw [List.mem_singleton.mp ho]; trivial
      · cases ho
    · cases h2; exact b0
  clear h2 b0
  -- flush and modes
  rcases M.bind_err h with h2 | ⟨_, sd, h2, h⟩
  · exact key sc s1 c0.1 c0.2.1 c0.2.2.1 c0.2.2.2.1 c0.2.2.2.2 (liftFlush_err h2)
  have e2 := liftFlush_ok h2
  rcases M.bind_err h with h3 | ⟨_, se, h3, h⟩
  · exact key sc s1 c0.1 c0.2.1 c0.2.2.1 c0.2.2.2.1 c0.2.2.2.2 ((tcsetattr_err h3).trans e2)
  have e3 : core se = { core sc with tio := p.oldTio } := by rw [tcsetattr_ok h3, e2]
  clear key
  have done : ∀ (t : US) (k : Nat), k < 5 →
      core t = { core sc with tio := p.oldTio,
                              act := putBackAll ((toPutBack p).take k) sc.act } →
      (t.resume = p.prevResume ∧ t.report = s.report ∧ QuietLog s t ∧
      ((t.tio = s.tio ∧ t.act = s.act) ∨
       (t.tio = p.oldTio ∧ ∃ k, k < 5 ∧ t.act = putBackAll ((toPutBack p).take k) s.act))) := by
    intro t k hk e
    refine ⟨(core_resume e).trans c0.1, (congrArg Core.report e).trans c0.2.1,
      c0.2.2.1.trans (QuietLog.same (core_log e)), .inr ⟨core_tio e, k, hk, ?_⟩⟩
    rw [core_act e, c0.2.2.2.2]
  rcases M.bind_err h with h4 | ⟨_, sf, h4, h⟩
  · exact done s1 0 (by omega) ((restoreSig_err h4).trans e3)
  have e4 := restoreSig_ok h4
  rw [core_act e3, e3] at e4
  rcases M.bind_err h with h5 | ⟨_, sg, h5, h⟩
  · exact done s1 1 (by omega) ((restoreSig_err h5).trans e4)
  have e5 := restoreSig_ok h5
  rw [core_act e4, e4] at e5
  rcases M.bind_err h with h6 | ⟨_, sh, h6, h⟩
  · exact done s1 2 (by omega) ((restoreSig_err h6).trans e5)
  have e6 := restoreSig_ok h6
  rw [core_act e5, e5] at e6
  rcases M.bind_err h with h7 | ⟨_, si, h7, h⟩
  · exact done s1 3 (by omega) ((restoreSig_err h7).trans e6)
  have e7 := restoreSig_ok h7
  rw [core_act e6, e6] at e7
  exact done s1 4 (by omega) ((restoreSig_err h).trans e7)

theorem installIf_err {c : Bool} {g : Sig} {s s' : US} {e : IoErr}
    (h : installIf c g s = .err e s') : c = true ∧ core s' = core s := by
  unfold installIf at h
  cases c with
  | false => cases h
  | true =>
    rcases M.bind_err h with h1 | ⟨_, s1, h1, h2⟩
    · exact ⟨rfl, sigaction_err h1⟩
    · cases h2

/-- A failed `prepare`. -/
theorem prepare_far {env : REnv} {cfg : PrepareConfig} {s s' : US} {e : IoErr}
    (h : prepare env cfg s = .err e s') :
    (s'.tio = s.tio ∧ s'.act = s.act) ∨
    (s'.tio = preparedTio cfg s.tio ∧ ∃ k, k < (installOrder cfg).length ∧
      ActedOn ((installOrder cfg).take k) allOurs s.act s'.act) := by
  obtain ⟨s1, h, hc, _⟩ := withWriter_err h
  rw [core_tio hc, core_act hc]
  show (s1.tio = s.tio ∧ s1.act = s.act) ∨ (s1.tio = preparedTio cfg s.tio ∧
    ∃ k, k < (installOrder cfg).length ∧ ActedOn ((installOrder cfg).take k) allOurs s.act s1.act)
  rcases M.bind_err h with h1 | ⟨old, sa, h1, h⟩
  · have := tcgetattr_err h1
    exact .inl ⟨core_tio this, core_act this⟩
  obtain ⟨rfl, ea⟩ := tcgetattr_ok h1
  rcases M.bind_err h with h2 | ⟨x, sa', h2, h⟩
  · cases h2
  cases h2
  rcases M.bind_err h with h2 | ⟨_, sb, h2, h⟩
  · have := (tcsetattr_err h2).trans ea
    exact .inl ⟨core_tio this, core_act this⟩
  have eb : sb.tio = preparedTio cfg s.tio ∧ sb.act = s.act := by
    have := tcsetattr_ok h2
    exact ⟨core_tio this, (core_act this).trans (core_act ea)⟩
  have none : ∀ t : US, SameButLog sb t → t.tio = preparedTio cfg s.tio ∧
      ∃ k, k < (installOrder cfg).length ∧
        ActedOn ((installOrder cfg).take k) allOurs s.act t.act := by
    rintro t ⟨t1, t2, -⟩
    refine ⟨t1.trans eb.1, 0, by simp [installOrder], fun g => ?_⟩
    rw [t2, eb.2]
    simp
  have tr : ∀ {a b c : US}, SameButLog a b → SameButLog b c → SameButLog a c :=
    fun h1 h2 => Frame.trans (R := SameButLog) h1 h2
  have ofCore : ∀ {a b : US}, core b = core a → SameButLog a b := fun h =>
    ⟨core_tio h, core_act h, congrArg Core.report h, core_resume h⟩
  rcases M.bind_err h with h3 | ⟨_, sc, h3, h⟩
  · exact .inr (none _ ((keeps_mouseOn env cfg).err h3))
  have q3 : SameButLog sb sc := (keeps_mouseOn env cfg).ok h3
  rcases M.bind_err h with h4 | ⟨_, sd, h4, h⟩
  · exact .inr (none _ (tr q3 ((keeps_keypadOn env cfg).err h4)))
  have q4 : SameButLog sb sd := tr q3 ((keeps_keypadOn env cfg).ok h4)
  rcases M.bind_err h with h5 | ⟨_, se, h5, h⟩
  · exact .inr (none _ (tr q4 (ofCore (liftFlush_err h5))))
  have q5 : SameButLog sb se := tr q4 (ofCore (liftFlush_ok h5))
  rcases M.bind_err h with h6 | ⟨_, sf, h6, h⟩
  · exact .inr (none _ (tr q5 (ofCore (sigaction_err h6))))
  obtain ⟨-, q6⟩ := sigaction_ok h6
  have t5 : se.tio = preparedTio cfg s.tio := q5.1.trans eb.1
  have a5 : se.act = s.act := q5.2.1.trans eb.2
  have t6 : sf.tio = preparedTio cfg s.tio := (core_tio q6).trans t5
  have a6 : sf.act = s.act.set .cont .ours := by rw [core_act q6]; dsimp only; rw [a5]
  rcases M.bind_err h with h7 | ⟨_, sg, h7, h⟩
  · have c := sigaction_err h7
    refine .inr ⟨(core_tio c).trans t6, 1, by simp [installOrder], fun g => ?_⟩
    rw [show s1.act = _ from (core_act c).trans a6]
    cases g <;> simp [installOrder, SigTab.get, SigTab.set, allOurs]
  obtain ⟨-, q7⟩ := sigaction_ok h7
  have t7 : sg.tio = preparedTio cfg s.tio := (core_tio q7).trans t6
  have a7 : sg.act = (s.act.set .cont .ours).set .winch .ours := by
    rw [core_act q7]; dsimp only; rw [a6]
  rcases M.bind_err h with h8 | ⟨_, sh, h8, h⟩
  · obtain ⟨hi, c⟩ := installIf_err h8
    refine .inr ⟨(core_tio c).trans t7, 2, by unfold installOrder; rw [if_pos hi]; simp,
      fun g => ?_⟩
    rw [show s1.act = _ from (core_act c).trans a7]
    cases g <;> simp [installOrder, SigTab.get, SigTab.set, allOurs]
  obtain ⟨-, q8⟩ := installIf_ok h8
  have t8 : sh.tio = preparedTio cfg s.tio := (core_tio q8).trans t7
  have a8 : sh.act = if cfg.reportSignals.contains .interrupt then
      ((s.act.set .cont .ours).set .winch .ours).set .int .ours
      else (s.act.set .cont .ours).set .winch .ours := by
    rw [core_act q8]; dsimp only; rw [a7]
  rcases M.bind_err h with h9 | ⟨_, si, h9, h⟩
  · obtain ⟨hi, c⟩ := installIf_err h9
    refine .inr ⟨(core_tio c).trans t8,
      2 + (if cfg.reportSignals.contains .interrupt then 1 else 0), ?_, fun g => ?_⟩
    · unfold installOrder
      rw [if_pos hi]
      cases cfg.reportSignals.contains .interrupt <;> simp
    · rw [show s1.act = _ from (core_act c).trans a8]
      unfold installOrder
      rw [if_pos hi]
      cases cfg.reportSignals.contains .interrupt <;> cases g <;>
        simp [SigTab.get, SigTab.set, allOurs]
  obtain ⟨-, q9⟩ := installIf_ok h9
  have t9 : si.tio = preparedTio cfg s.tio := (core_tio q9).trans t8
  have a9 := core_act q9
  dsimp only at a9
  rw [a8] at a9
  rcases M.bind_err h with h10 | ⟨_, sj, h10, h⟩
  · obtain ⟨hi, c⟩ := installIf_err h10
    refine .inr ⟨(core_tio c).trans t9,
      2 + (if cfg.reportSignals.contains .interrupt then 1 else 0) +
        (if cfg.reportSignals.contains .suspend then 1 else 0), ?_, fun g => ?_⟩
    · unfold installOrder
      rw [if_pos hi]
      cases cfg.reportSignals.contains .interrupt <;>
      cases cfg.reportSignals.contains .suspend <;> simp
    · rw [show s1.act = _ from (core_act c).trans a9]
      unfold installOrder
      rw [if_pos hi]
      cases cfg.reportSignals.contains .interrupt <;>
      cases cfg.reportSignals.contains .suspend <;> cases g <;>
        simp [SigTab.get, SigTab.set, allOurs]
  rcases M.bind_err h with h11 | ⟨_, sk, h11, h⟩
  · cases h11
  · cases h

theorem flush_err_log {s s' : WS} {e : IoErr} (h : flush s = .err e s') : s'.log = s.log := by
  have := flush_log s; rw [h] at this; exact this

/-- Putting back the first few. -/
theorem putBack_prefix (env : REnv) (cfg : PrepareConfig) (c : Core) (a : SigTab)
    (hun : ∀ g, ¬ HandledUnder cfg g → a.get g = c.act.get g) (k : Nat) (hk : k < 5) (g : Sig) :
    (putBackAll ((toPutBack (savedState env cfg c)).take k) a).get g =
      if g ∈ restoreOrder.take k then c.act.get g else a.get g := by
  have hi := hun .int
  have hts := hun .tstp
  have hq := hun .quit
  unfold HandledUnder at hi hts hq
  unfold savedState toPutBack restoreOrder
  revert hi hts hq
  have : k = 0 ∨ k = 1 ∨ k = 2 ∨ k = 3 ∨ k = 4 := by omega
  clear hun
  cases h1 : cfg.reportSignals.contains .interrupt <;>
  cases h2 : cfg.reportSignals.contains .suspend <;>
  cases h3 : cfg.reportSignals.contains .quit <;>
  rcases this with rfl | rfl | rfl | rfl | rfl <;>
  cases g <;> simp [putBackAll, putBack, SigTab.set, SigTab.get] <;> intros <;> assumption

/-- Dropping a terminal, whatever happens: modes, handlers and configuration stay. -/
theorem termDrop_any {env : REnv} {s s' : US} (h : termDrop env s = .ok () s') :
    SameButLog s s' ∧ QuietLog s s' := by
  rcases printErr_ok h with h | ⟨e, h⟩
  · have c := termCursorMode_core h
    refine ⟨⟨core_tio c, core_act c, congrArg Core.report c, core_resume c⟩, _, core_log c, ?_⟩
    intro o ho
    split at ho
    · rw [List.mem_singleton.mp ho]; trivial
    · cases ho
  · obtain ⟨s1, h1, h2, _⟩ := withWriter_err h
    obtain ⟨b, c⟩ := liftExpandOpt_err h1
    have c := h2.trans c
    refine ⟨⟨core_tio c, core_act c, congrArg Core.report c, core_resume c⟩, _, core_log c, ?_⟩
    intro o ho
    rw [List.mem_singleton.mp ho]; trivial

/-- Leaving the alternate screen, when the output fails. -/
theorem termExit_err {env : REnv} {s s' : US} {e : IoErr} (h : termExit env s = .err e s') :
    SameButLog s s' ∧ (GoodDB env.w → altScreen s'.w.log = false) := by
  obtain ⟨s1, h1, h2, _⟩ := withWriter_err h
  obtain ⟨w, h3, rfl⟩ := liftW_err h1
  refine ⟨⟨core_tio h2, core_act h2, congrArg Core.report h2, core_resume h2⟩, fun hg => ?_⟩
  rw [core_log h2]
  show altScreen w.log = false
  unfold exitScreen at h3
  cases hc : env.w.db .exitCaMode with
  | none => rw [hc] at h3; cases h3
  | some f =>
    rw [hc] at h3
    dsimp only at h3
    have hgood := hg _ _ hc []
    unfold expand at h3
    rcases hf : f [] with ⟨b, good⟩
    rw [hf] at h3 hgood
    dsimp only at h3 hgood
    subst hgood
    have h4 : flush _ = .err e w := h3
    rw [flush_err_log h4]
    exact altScreen_exit _ _

/-- Dropping a screen, whatever happens. -/
theorem screenDrop_any {env : REnv} {cfg : PrepareConfig} {p : PrepareState} {s0 s1 s2 s3 : US}
    (h1 : prepare env cfg s0 = .ok p s1) (h2 : s2.act = s1.act)
    (h3 : screenDrop env p s2 = .ok () s3) :
    AfterDrop (GoodDB env.w ∧ (env.w.db .exitCaMode).isSome) s0 s2 s3 := by
  obtain ⟨_, sy, k1, k2⟩ := M.bind_ok h3
  obtain ⟨⟨d1, d2, -, d4⟩, dq⟩ := termDrop_any k2
  have dalt := dq.alt
  have full : ∀ sx, restore env p s2 = .ok () sx → SameButLog sx sy →
      (GoodDB env.w ∧ (env.w.db .exitCaMode).isSome → altScreen sy.w.log = false) →
      AfterDrop (GoodDB env.w ∧ (env.w.db .exitCaMode).isSome) s0 s2 s3 := by
    intro sx hr hs ha
    obtain ⟨b1, b2, b3⟩ := balanced_nest h1 h2 hr
    refine ⟨d4.trans (hs.2.2.2.trans b3), .inl ⟨d1.trans (hs.1.trans b1), d2.trans (hs.2.1.trans b2),
      fun hc => dalt.trans (ha hc)⟩⟩
  rcases printErr_ok k1 with k1 | ⟨e, k1⟩
  · obtain ⟨_, sx, k3, k4⟩ := M.bind_ok k1
    have c := termExit_core k4
    refine full sx k3 ⟨core_tio c, core_act c, congrArg Core.report c, core_resume c⟩ fun hc => ?_
    rw [core_log c]
    dsimp only
    rw [if_pos hc.2]
    exact altScreen_exit _ _
  · rcases M.bind_err k1 with k3 | ⟨_, sx, k3, k4⟩
    · obtain ⟨r1, -, r3, r4⟩ := restore_err k3
      obtain ⟨e1, e2⟩ := prepare_ok h1
      have hp : p.prevResume = s0.resume := by rw [e2]; rfl
      have ht : p.oldTio = s0.tio := by rw [e2]; rfl
      refine ⟨d4.trans (r1.trans hp), .inr ⟨dalt.trans r3.alt, ?_⟩⟩
      rcases r4 with ⟨r4, r5⟩ | ⟨r4, k, hk, r5⟩
      · exact .inl ⟨d1.trans r4, d2.trans r5⟩
      · refine .inr ⟨d1.trans (r4.trans ht), k, hk, fun g => ?_⟩
        rw [d2, r5]
        have hun : ∀ g, ¬ HandledUnder cfg g → s2.act.get g = s0.act.get g := by
          intro g hg
          rw [h2, core_act e1]
          exact (preparedAct_get cfg _ g).2 hg
        rw [e2]
        exact putBack_prefix env cfg (core s0) s2.act hun k hk g
    · have c := termExit_err k4
      exact full sx k3 c.1 fun hc => c.2 hc.1

end Mortal
