import Verif.Lemmas.WinCalls
import Verif.Spec.WinMode
import Verif.Lemmas.SignalSet
import Mathlib.Tactic.IntervalCases

/-! # C46: Windows console modes are restored -/

namespace Mortal
open Spec

theorem reports_iff (cfg : PrepareConfig) : reports cfg = true ↔ AsksCtrl cfg := by
  unfold reports AsksCtrl
  rw [SignalSet.contains_eq, SignalSet.contains_eq]
  generalize cfg.reportSignals = r
  unfold SignalSet.intersects
  have e : (SignalSet.orSignals .break .interrupt).bits = 5#8 := by decide
  rw [e, bne_iff_ne]
  show _ ↔ r.bits.getLsbD 0 = true ∨ r.bits.getLsbD 2 = true
  constructor
  · intro h
    apply Classical.byContradiction
    intro hn
    apply h
    apply BitVec.eq_of_getLsbD_eq
    intro i hi
    simp only [BitVec.getLsbD_and]
    interval_cases i <;> simp_all
  · intro h h0
    have h2 : ∀ i, (r.bits &&& 5#8).getLsbD i = false := by rw [h0]; simp
    have a := h2 0
    have b := h2 2
    simp only [BitVec.getLsbD_and] at a b
    rcases h with h | h
    · rw [h] at a; exact absurd a (by decide)
    · rw [h] at b; exact absurd b (by decide)

theorem prepareMode_bit (cfg : PrepareConfig) (m : BitVec 32) (i : Nat) (hi : i < 32) :
    (prepareMode cfg m).getLsbD i = preparedBit cfg m i := by
  unfold prepareMode preparedBit
  cases cfg.blockSignals <;> cases cfg.enableMouse <;> interval_cases i <;>
    simp [ENABLE_EXTENDED_FLAGS, ENABLE_ECHO_INPUT, ENABLE_LINE_INPUT, ENABLE_PROCESSED_INPUT,
      ENABLE_MOUSE_INPUT, ENABLE_QUICK_EDIT_MODE, ENABLE_WINDOW_INPUT,
      ENABLE_VIRTUAL_TERMINAL_INPUT]

theorem ext_idem (m : BitVec 32) : m ||| 0x80 ||| 0x80 = m ||| 0x80 := by
  rw [BitVec.or_assoc]; rfl

theorem grows_uses (t : WTerm) : ∀ (l : List UseOp) (st : List WinPrepared), Grows (runUses t l st)
  | [], st => Grows.pure st
  | .prepare cfg :: l, st => by
    unfold runUses
    exact Grows.bind (does_prepare (u := demoEnv) demoCon (demoSt []) t
      cfg).grows fun p => grows_uses t l (p :: st)
  | .restore :: l, [] =>
    (Does.halt (u := demoEnv) (k := 0) (P := fun _ _ => False)
      (Q := fun _ _ _ => False) (E := fun _ _ _ => False) .blocked).grows
  | .restore :: l, p :: st => by
    unfold runUses
    exact Grows.bind (does_restore (u := demoEnv) demoCon (demoSt []) t
      p).grows fun _ => grows_uses t l st

/-- What a sequence of nested uses does. -/
theorem does_uses (u : UEnv) (t : WTerm) {ops : List UseOp} (hn : Nested ops) :
    ∀ (st : List WinPrepared) (l : List UseOp) (Q : List WinPrepared → Con → WinSt → Prop) (c0 : Con),
      (∀ c1 s1, c1.inMode = (if ops = [] then c0.inMode else c0.inMode ||| 0x80) →
        c1.handlers = c0.handlers → SameOutput c0 c1 →
        Does u t.inH (CAt c1 s1) (runUses t l st) Q (fun _ _ _ => True)) →
      ∀ s0, Does u t.inH (CAt c0 s0) (runUses t (ops ++ l) st) Q (fun _ _ _ => True) := by
  induction hn with
  | nil =>
    intro st l Q c0 h s0
    exact h c0 s0 rfl rfl ⟨rfl, rfl⟩
  | @wrap cfg a b _ _ iha ihb =>
    intro st l Q c0 h s0
    have e : (UseOp.prepare cfg :: (a ++ .restore :: b)) ++ l =
        .prepare cfg :: (a ++ (.restore :: (b ++ l))) := by simp
    rw [e]
    unfold runUses
    refine Does.bind (Does.mono (does_prepare c0 s0 t cfg) (fun _ _ h => h) (fun _ _ _ h => h)
      (fun _ _ _ _ => trivial)) fun p => ?_
    refine Does.assume (grows_uses t _ _) fun hp => ?_
    subst hp
    refine iha _ _ _ _ ?_ _
    intro c1 s1 hm hh ho
    unfold runUses
    refine Does.bind (Does.mono (does_restore c1 s1 t _) (fun _ _ h => h) (fun _ _ _ h => h)
      (fun _ _ _ _ => trivial)) fun _ => ?_
    refine ihb _ _ _ _ ?_ _
    intro c2 s2 hm2 hh2 ho2
    refine h c2 s2 ?_ ?_ ⟨ho2.1.trans ho.1, ho2.2.trans ho.2⟩
    · rw [if_neg (by simp), hm2]
      show (if b = [] then c0.inMode ||| 0x80 else (c0.inMode ||| 0x80) ||| 0x80) = _
      split
      · rfl
      · exact ext_idem _
    · rw [hh2]
      show (if reports cfg then c1.handlers - 1 else c1.handlers) = _
      rw [hh]
      show (if reports cfg then (if reports cfg then c0.handlers + 1 else c0.handlers) - 1 else
        (if reports cfg then c0.handlers + 1 else c0.handlers)) = _
      cases reports cfg <;> rfl

/-- **C46.** `prepare` changes exactly the documented bits of the input mode, registers the control
handler once if signals are to be reported, and changes nothing else of the console; whatever else
happens in the meantime. -/
theorem C46_prepare (u : UEnv) (t : WTerm) (cfg : PrepareConfig) (s s' : WinSt) (p : WinPrepared)
    (c : Con) (D : List WEv) (h : winPrepare t cfg s = .ok p s') (hl : s'.log = s.log ++ D)
    (hr : c.Runs u t.inH D) :
    ∃ c', c.play u t.inH D = some c' ∧
      (∀ i < 32, c'.inMode.getLsbD i = preparedBit cfg c.inMode i) ∧
      c'.handlers = c.handlers + (if AsksCtrl cfg then 1 else 0) ∧ SameOutput c c' := by
  obtain ⟨c', e1, -, ⟨q, rfl⟩, -⟩ := (does_prepare c s t cfg).ok s c (.refl c s) p s' D h hl hr
  refine ⟨_, e1, fun i hi => prepareMode_bit cfg _ i hi, ?_, rfl, rfl⟩
  show (if reports cfg then _ else _) = _
  by_cases ha : AsksCtrl cfg
  · rw [if_pos ((reports_iff cfg).mpr ha), if_pos ha]
  · rw [if_neg (fun e => ha ((reports_iff cfg).mp e)), if_neg ha]; rfl

/-- **C46.** Properly nested uses of `prepare` and `restore` leave the console as it was, apart from
the extended-flags bit: the input mode, the registrations of the control handler and all output
settings, whatever else happens in the meantime. -/
theorem C46_nested (u : UEnv) (t : WTerm) (ops : List UseOp) (hn : Nested ops)
    (st st' : List WinPrepared) (s s' : WinSt) (c : Con) (D : List WEv)
    (h : runUses t ops st s = .ok st' s') (hl : s'.log = s.log ++ D) (hr : c.Runs u t.inH D) :
    ∃ c', c.play u t.inH D = some c' ∧ st' = st ∧
      c'.inMode = (if ops = [] then c.inMode else c.inMode ||| 0x80) ∧
      c'.handlers = c.handlers ∧ SameOutput c c' := by
  have hd := does_uses u t hn st [] (fun st' c' _ => st' = st ∧
      c'.inMode = (if ops = [] then c.inMode else c.inMode ||| 0x80) ∧
      c'.handlers = c.handlers ∧ SameOutput c c') c (fun c1 s1 h1 h2 h3 => by
    unfold runUses
    refine Does.mono (Does.pure st) (fun _ _ h => h) ?_ (fun _ _ _ h => h)
    rintro st' c' s' ⟨rfl, ⟨q, rfl⟩, -⟩
    exact ⟨rfl, h1, h2, h3⟩) s
  rw [List.append_nil] at hd
  exact hd.ok s c (.refl c s) st' s' D h hl hr

/-- **C46.** When `prepare` fails the mode has been left alone, or it has been changed and only the
registration of the handler is missing. When `restore` fails, the mode is still the prepared one. -/
theorem C46_errors (u : UEnv) (t : WTerm) (s s' : WinSt) (c : Con) (D : List WEv) (e : IoErr)
    (hl : s'.log = s.log ++ D) (hr : c.Runs u t.inH D) :
    (∀ cfg, winPrepare t cfg s = .err e s' → ∃ c', c.play u t.inH D = some c' ∧
      c'.handlers = c.handlers ∧ SameOutput c c' ∧ (c'.inMode = c.inMode ∨
        ∀ i < 32, c'.inMode.getLsbD i = preparedBit cfg c.inMode i)) ∧
    (∀ p, winRestore t p s = .err e s' → ∃ c', c.play u t.inH D = some c' ∧
      c'.inMode = c.inMode ∧ SameOutput c c') := by
  constructor
  · intro cfg h
    obtain ⟨c', e1, e2⟩ := (does_prepare c s t cfg).err s c (.refl c s) e s' D h hl hr
    refine ⟨c', e1, ?_⟩
    rcases e2 with ⟨q, rfl⟩ | ⟨q, rfl⟩
    · exact ⟨rfl, ⟨rfl, rfl⟩, Or.inl rfl⟩
    · exact ⟨rfl, ⟨rfl, rfl⟩, Or.inr fun i hi => prepareMode_bit cfg _ i hi⟩
  · intro p h
    obtain ⟨c', e1, e2⟩ := (does_restore c s t p).err s c (.refl c s) e s' D h hl hr
    refine ⟨c', e1, ?_⟩
    rcases e2 with ⟨⟨q, rfl⟩, -⟩ | ⟨⟨q, rfl⟩, -⟩
    · exact ⟨rfl, rfl, rfl⟩
    · exact ⟨rfl, rfl, rfl⟩

/-- A configuration. -/
def winCfg (sigs : SignalSet) (mouse track : Bool) : PrepareConfig where
  blockSignals := true
  enableControlFlow := false
  enableKeypad := true
  enableMouse := mouse
  alwaysTrackMotion := track
  reportSignals := sigs

/-- The answers to a successful `prepare` that registers the handler. -/
def okPrepare (m : BitVec 32) : List ConStep := [⟨[], .mode m⟩, ⟨[], .ok⟩, ⟨[], .ok⟩, ⟨[], .ok⟩]

/-- **C46, limit.** A `prepare` that fails may leave the terminal in raw mode: when the control
handler cannot be registered the mode set just before is not undone, and there is no
`PrepareState` to restore it with. -/
theorem C46_failed_prepare : ∃ (s s' : WinSt) (c c' : Con) (cfg : PrepareConfig) (e : IoErr),
    winPrepare demoTerm cfg s = .err e s' ∧ s.log = [] ∧ c.Runs demoEnv 1 s'.log ∧
    c.play demoEnv 1 s'.log = some c' ∧ c.inMode = 0x1F7 ∧ c'.inMode = 0x1A8 := by
  refine ⟨demoSt [⟨[], .mode 0x1F7⟩, ⟨[], .ok⟩, ⟨[], .ok⟩, ⟨[], .fail⟩], _, demoCon, _,
    winCfg (.ofSignal .interrupt) false false, .os, rfl, rfl, ?_, rfl, rfl, by decide⟩
  refine ⟨Or.inr (Or.inl ⟨rfl, rfl⟩), fun c1 h1 => ?_⟩
  cases h1
  refine ⟨Or.inr ⟨rfl, Or.inl rfl⟩, fun c1 h1 => ?_⟩
  cases h1
  refine ⟨trivial, fun c1 h1 => ?_⟩
  cases h1
  exact ⟨Or.inl rfl, fun _ _ => trivial⟩

/-- **C46, limit.** The signals to report are not restored. The terminal was prepared to report
interrupts; a nested use asks for `Break` only and is over; now interrupts are not reported (the
handler declines the event, so that the process is ended), although they were before. -/
theorem C46_signals_not_restored : ∃ (s s1 s' : WinSt) (st1 st' : List WinPrepared),
    runUses demoTerm [.prepare (winCfg (.ofSignal .interrupt) false false)] [] s = .ok st1 s1 ∧
    (ctrlHandler CTRL_C true s1).log = s1.log ++ [.ctrl CTRL_C true true] ∧
    runUses demoTerm [.prepare (winCfg (.ofSignal .break) false false), .restore] st1 s1 =
      .ok st' s' ∧ st' = st1 ∧
    (ctrlHandler CTRL_C true s').log = s'.log ++ [.ctrl CTRL_C false false] ∧
    demoCon.Runs demoEnv 1 s'.log := by
  refine ⟨demoSt (okPrepare 0x1F7 ++ (okPrepare 0x1A8 ++ [⟨[], .ok⟩, ⟨[], .ok⟩])),
    { demoSt (okPrepare 0x1A8 ++ [⟨[], .ok⟩, ⟨[], .ok⟩]) with
      catchSet := 1
      log := [.call (.getMode 1) (.mode 0x1F7), .call (.setMode 1 0x1A8) .ok, .call .atomic .ok,
        .call (.setCtrlHandler true) .ok] },
    { demoSt [] with
      catchSet := 2
      log := [.call (.getMode 1) (.mode 0x1F7), .call (.setMode 1 0x1A8) .ok, .call .atomic .ok,
        .call (.setCtrlHandler true) .ok, .call (.getMode 1) (.mode 0x1A8),
        .call (.setMode 1 0x1A8) .ok, .call .atomic .ok, .call (.setCtrlHandler true) .ok,
        .call (.setCtrlHandler false) .ok, .call (.setMode 1 0x1A8) .ok] },
    [⟨0x1F7, true⟩], [⟨0x1F7, true⟩], by decide +kernel, by decide +kernel, by decide +kernel, rfl,
    by decide +kernel, ?_⟩
  refine runs_cons (c' := demoCon) (Or.inr (Or.inl ⟨rfl, rfl⟩)) rfl ?_
  refine runs_cons (c' := { demoCon with inMode := 0x1A8 }) (Or.inr ⟨rfl, Or.inl rfl⟩) rfl ?_
  refine runs_cons (c' := { demoCon with inMode := 0x1A8 }) trivial rfl ?_
  refine runs_cons (c' := { demoCon with inMode := 0x1A8, handlers := 1 })
    (Or.inr ⟨rfl, Or.inl rfl⟩) rfl ?_
  refine runs_cons (c' := { demoCon with inMode := 0x1A8, handlers := 1 })
    (Or.inr (Or.inl ⟨rfl, rfl⟩)) rfl ?_
  refine runs_cons (c' := { demoCon with inMode := 0x1A8, handlers := 1 })
    (Or.inr ⟨rfl, Or.inl rfl⟩) rfl ?_
  refine runs_cons (c' := { demoCon with inMode := 0x1A8, handlers := 1 }) trivial rfl ?_
  refine runs_cons (c' := { demoCon with inMode := 0x1A8, handlers := 2 })
    (Or.inr ⟨rfl, Or.inl rfl⟩) rfl ?_
  refine runs_cons (c' := { demoCon with inMode := 0x1A8, handlers := 1 })
    (Or.inr ⟨rfl, Or.inr (by decide)⟩) rfl ?_
  exact runs_cons (c' := { demoCon with inMode := 0x1A8, handlers := 1 })
    (Or.inr ⟨rfl, Or.inl rfl⟩) rfl trivial

/-- **C46, limit.** Tracking of mouse motion is not restored by a nested use either. -/
theorem C46_motion_not_restored : ∃ (s s1 s' : WinSt) (st1 st' : List WinPrepared),
    runUses demoTerm [.prepare (winCfg .new true true)] [] s = .ok st1 s1 ∧ s1.rd.track = true ∧
    runUses demoTerm [.prepare (winCfg .new true false), .restore] st1 s1 = .ok st' s' ∧
    st' = st1 ∧ s'.rd.track = false ∧ demoCon.Runs demoEnv 1 s'.log := by
  refine ⟨demoSt [⟨[], .mode 0x1F7⟩, ⟨[], .ok⟩, ⟨[], .mode 0x1B8⟩, ⟨[], .ok⟩, ⟨[], .ok⟩],
    { demoSt [⟨[], .mode 0x1B8⟩, ⟨[], .ok⟩, ⟨[], .ok⟩] with
      rd := ⟨true, 0⟩
      log := [.call (.getMode 1) (.mode 0x1F7), .call (.setMode 1 0x1B8) .ok] },
    { demoSt [] with
      log := [.call (.getMode 1) (.mode 0x1F7), .call (.setMode 1 0x1B8) .ok,
        .call (.getMode 1) (.mode 0x1B8), .call (.setMode 1 0x1B8) .ok,
        .call (.setMode 1 0x1B8) .ok] },
    [⟨0x1F7, false⟩], [⟨0x1F7, false⟩], by decide +kernel, rfl, by decide +kernel, rfl, rfl, ?_⟩
  refine runs_cons (c' := demoCon) (Or.inr (Or.inl ⟨rfl, rfl⟩)) rfl ?_
  refine runs_cons (c' := { demoCon with inMode := 0x1B8 }) (Or.inr ⟨rfl, Or.inl rfl⟩) rfl ?_
  refine runs_cons (c' := { demoCon with inMode := 0x1B8 }) (Or.inr (Or.inl ⟨rfl, rfl⟩)) rfl ?_
  refine runs_cons (c' := { demoCon with inMode := 0x1B8 }) (Or.inr ⟨rfl, Or.inl rfl⟩) rfl ?_
  exact runs_cons (c' := { demoCon with inMode := 0x1B8 }) (Or.inr ⟨rfl, Or.inl rfl⟩) rfl trivial

/-- The hypotheses of `C46_prepare`, `C46_nested` and `C46_errors` are met: the runs above are made
of possible answers, the uses in them are properly nested, and control events may come in between. -/
example : Nested [.prepare (winCfg (.ofSignal .interrupt) false false),
    .prepare (winCfg (.ofSignal .break) false false), .restore, .restore] :=
  .wrap _ (a := [.prepare _, .restore]) (b := []) (.wrap _ (a := []) (b := []) .nil .nil) .nil

example : ∃ (s s' : WinSt) (st' : List WinPrepared),
    runUses demoTerm [.prepare (winCfg .new true true), .restore] [] s = .ok st' s' ∧
    s.log = [] ∧ demoCon.Runs demoEnv 1 s'.log ∧ s'.log.length = 4 := by
  refine ⟨demoSt [⟨[], .mode 0x1F7⟩, ⟨[.input .other], .ok⟩, ⟨[], .ok⟩],
    { demoSt [] with
      rd := ⟨true, 0⟩
      log := [.call (.getMode 1) (.mode 0x1F7), .input .other, .call (.setMode 1 0x1B8) .ok,
        .call (.setMode 1 0x1F7) .ok] }, [], by decide +kernel, rfl, ?_, rfl⟩
  refine runs_cons (c' := demoCon) (Or.inr (Or.inl ⟨rfl, rfl⟩)) rfl ?_
  refine runs_cons (c' := { demoCon with queue := [.other] }) trivial rfl ?_
  refine runs_cons (c' := { demoCon with queue := [.other], inMode := 0x1B8 })
    (Or.inr ⟨rfl, Or.inl rfl⟩) rfl ?_
  exact runs_cons (c' := { demoCon with queue := [.other], inMode := 0x1F7 })
    (Or.inr ⟨rfl, Or.inl rfl⟩) rfl trivial

end Mortal
