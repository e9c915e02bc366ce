import Verif.Lemmas.Signals
import Verif.Props.Prepare

/-!
# Signals (C31–C33)
-/

namespace Mortal
open Spec

/-! ## C31: reported at most once, and never invented -/

/-- **C31.** For every history of calls and every arrival of signals: the signals reported,
followed by the one still pending, are a subsequence of the one pending at first followed by those
handled during the history. So no signal is invented, none is reported twice, and they are reported
in the order of arrival. -/
theorem C31_at_most_once (env : REnv) (K : PMap SeqData) (hm : Table env.seqs K) (ops : List UOp) :
    ∀ (st st' : List PrepareState) (s s' : US) (rs : List URet),
      runU env ops st s = some (rs, st', s') →
      ∃ new, s'.seen = s.seen ++ new ∧
        (rs.filterMap reportedSig ++ (pendingSig s').toList.map Sig.signal).Sublist
          (((pendingSig s).toList ++ new).map Sig.signal) := by
  induction ops with
  | nil =>
    intro st st' s s' rs h
    cases h
    exact ⟨[], by simp, by simp⟩
  | cons op ops ih =>
    intro st st' s s' rs h
    unfold runU at h
    simp only [Option.bind_eq_bind, Option.bind_eq_some_iff, Option.pure_def,
      Option.some.injEq, Prod.mk.injEq] at h
    obtain ⟨⟨r, st1, s1⟩, h1, ⟨rs1, st2, s2⟩, h2, h3, h4, h5⟩ := h
    dsimp only at h2 h3 h4 h5
    subst h3 h4 h5
    obtain ⟨n1, e1, l1⟩ := (run_sig hm h1).sublist
    obtain ⟨n2, e2, l2⟩ := ih _ _ _ _ _ h2
    refine ⟨n1 ++ n2, by rw [e2, e1, List.append_assoc], ?_⟩
    have hf : (r :: rs1).filterMap reportedSig =
        (reportedSig r).toList ++ rs1.filterMap reportedSig := by
      rw [List.filterMap_cons]
      cases reportedSig r <;> rfl
    rw [hf, List.append_assoc]
    refine List.Sublist.trans (List.Sublist.append (List.Sublist.refl _) l2) ?_
    rw [List.map_append, ← List.append_assoc, ← List.append_assoc, List.map_append]
    exact List.Sublist.append l1 (List.Sublist.refl _)

/-- **C31.** The next read that has to wait answers the most recent signal: when no complete event is
buffered, `read_event` acts on the last signal handled so far, at once, whatever its timeout. -/
theorem C31_latest_first (env : REnv) (t : Option Nat) (s : US) (st : Step) (rest : List Step)
    (g : Sig) (hb : s.inBuf = [] ∨ Unfinished s.inBuf) (hs : s.sched = st :: rest)
    (hg : latest (handled s.act st.before) (pendingSig s) = some g) :
    readEvent env t s = handleSignal env (Sig.signal g)
      { s.advance st rest with seen := s.seen ++ handled s.act st.before, last := 0 } := by
  have ht : tryReadM env s = .ok none s := by
    rcases hb with hb | hb
    · unfold tryReadM
      rw [M.bind_apply]
      dsimp only [getS]
      rw [hb]
      rfl
    · exact C30_unfinished_waits env s hb
  have hr : ∀ n, readInput env n t { s with inBuf := [] } =
      .ok (.event (.signal (Sig.signal g))) { s.advance st rest with
        seen := s.seen ++ handled s.act st.before, last := 0, inBuf := [] } := by
    intro n
    unfold readInput
    rw [M.bind_apply, takeSignal_step (s := { s with inBuf := [] }) hs hg]
    rfl
  unfold readEvent
  rw [M.bind_apply, ht]
  dsimp only
  have hi : readIntoBuffer env t s = .ok (.event (.signal (Sig.signal g)))
      { s.advance st rest with seen := s.seen ++ handled s.act st.before, last := 0 } := by
    have e : readIntoBuffer env t s =
        match readInput env (env.spare s.inBuf.length) t { s with inBuf := [] } with
        | .ok (.raw b) s' => .ok (.raw b) { s' with inBuf := s.inBuf ++ b }
        | .ok r s' => .ok r { s' with inBuf := s.inBuf }
        | .err e s' => .err e { s' with inBuf := s.inBuf }
        | .stop w => .stop w := rfl
    rw [e, hr]
  rw [M.bind_apply, hi]

/-- **C31.** Likewise for `read_raw` when no byte is buffered. -/
theorem C31_latest_first_raw (env : REnv) (n : Nat) (t : Option Nat) (s : US) (st : Step)
    (rest : List Step) (g : Sig) (hb : s.inBuf = []) (hs : s.sched = st :: rest)
    (hg : latest (handled s.act st.before) (pendingSig s) = some g) :
    readRaw env n t s =
      match handleSignal env (Sig.signal g)
        { s.advance st rest with seen := s.seen ++ handled s.act st.before, last := 0 } with
      | .ok (some ev) s' => .ok (.event ev) s'
      | .ok none s' => .ok .nothing s'
      | .err e s' => .err e s'
      | .stop w => .stop w := by
  unfold readRaw
  rw [M.bind_apply]
  dsimp only [getS]
  rw [if_neg (by rw [hb]; simp), M.bind_apply]
  unfold readInput
  rw [M.bind_apply, takeSignal_step hs hg]
  show (handleSignal env (Sig.signal g) >>= _) _ = _
  rw [M.bind_apply]
  cases handleSignal env (Sig.signal g)
    { s.advance st rest with seen := s.seen ++ handled s.act st.before, last := 0 } with
  | ok o s' => cases o <;> rfl
  | err e s' => rfl
  | stop w => rfl

/-- **C31 (partial).** A pending signal stays pending until it is reported, it is answered by an
error, or it is one the configuration does not report — or until another one arrives.

Missing: another one arriving first displaces it (`C31_signal_lost`). -/
theorem C31_not_lost_partial (env : REnv) (K : PMap SeqData) (hm : Table env.seqs K) (op : UOp)
    (st st' : List PrepareState) (s s' : US) (r : URet) (g : Sig)
    (h : UOp.run env st s op = some (r, st', s')) (hg : pendingSig s = some g)
    (hn : s'.seen = s.seen) :
    pendingSig s' = some g ∨ reportedSig r = some (Sig.signal g) ∨ (∃ e, r = .err e) ∨
      (r = .event none ∧ g ≠ .winch ∧ s'.report.contains (Sig.signal g) = false) := by
  rcases run_sig hm h with ⟨_, new, h1, h2⟩ | ⟨g', ⟨n1, n2, h1, h2, _⟩, hr⟩
  · rw [hn] at h1
    have : new = [] := by simpa using h1
    rw [this, latest_nil] at h2
    exact Or.inl (h2.trans hg)
  · rw [hn, List.append_assoc] at h1
    have : n1 = [] ∧ n2 = [] := by simpa using h1
    rw [this.1, latest_nil, hg] at h2
    cases h2
    exact Or.inr hr

/-! ## C32: waking a waiting reader -/

/-- **C32.** If a handled signal is pending or arrives before the first check, `wait_event` returns
`true` without waiting. -/
theorem C32_already_pending (env : REnv) (t : Option Nat) (s : US) (st : Step) (rest : List Step)
    (hs : s.sched = st :: rest) (hg : pendingSig s ≠ none ∨ handled s.act st.before ≠ []) :
    ∃ s', waitEvent env t s = .ok true s' ∧ s'.sched = rest ∧ s'.waited = s.waited := by
  obtain ⟨x, h1, _⟩ := getSignal_step hs
  have : ∃ g, latest (handled s.act st.before) (pendingSig s) = some g := by
    unfold latest
    cases hl : (handled s.act st.before).getLast? with
    | some g => exact ⟨g, rfl⟩
    | none =>
      rcases hg with hg | hg
      · cases hp : pendingSig s with
        | none => exact absurd hp hg
        | some g => exact ⟨g, rfl⟩
      · exact absurd (List.getLast?_eq_none_iff.1 hl) hg
  obtain ⟨g, hg⟩ := this
  rw [hg] at h1
  refine ⟨{ s.advance st rest with seen := s.seen ++ handled s.act st.before, last := x }, ?_, rfl,
    rfl⟩
  unfold waitEvent
  rw [M.bind_apply, h1]
  rfl

/-- **C32.** A handled signal that interrupts `select`, after any number of interruptions by other
signals, makes `wait_event` return `true` at once. -/
theorem C32_interrupted (env : REnv) (t : Option Nat) (s : US) (st0 st1 st2 : Step)
    (rounds : List (Step × Step)) (rest : List Step) (d : List Sig) (e : Nat)
    (hb : s.inBuf = [] ∨ Unfinished s.inBuf) (hp : pendingSig s = none)
    (h0 : handled s.act st0.before = []) (hq : ∀ r ∈ rounds, QuietRound s.act r)
    (hs : s.sched = st0 :: (roundSteps rounds ++ st1 :: st2 :: rest)) (hr : st1.res = .eintr d e)
    (hd : handled s.act (st1.before ++ d ++ st2.before) ≠ []) :
    ∃ s', waitEvent env t s = .ok true s' ∧ s'.sched = rest := by
  obtain ⟨x, h1, h2⟩ := getSignal_step hs
  rw [h0, latest_nil, hp] at h1 h2
  have hpk : ∀ s1 : US, peekM env s.inBuf s1 = .ok none s1 := by
    intro s1
    unfold peekM peekEvent
    rcases hb with hb | hb
    · rw [hb]; rfl
    · rw [utf8Prefix_unfinished hb]; rfl
  unfold waitEvent
  rw [M.bind_apply, h1]
  dsimp only [Option.map_none]
  rw [M.bind_apply]
  dsimp only [getS]
  rw [M.bind_apply, hpk _]
  dsimp only
  refine waitLoop_wakes rounds _ t _ st1 st2 rest d e ?_ hq h2 rfl hr hd
  have := roundSteps_length rounds
  simp only [List.length_append, List.length_cons]
  omega

/-- **C32 (partial).** If `wait_event` reports a timeout, no signal was pending at the start and the
only handled signals that arrived since then came after the last check and before the `select` that
timed out. Together with `C32_already_pending` and `C32_interrupted` this says what happens at every
other point.

Missing: signals arriving in that window are not noticed (`C32_missed_wakeup`). -/
theorem C32_false_partial (env : REnv) (t : Option Nat) (s s' : US)
    (h : waitEvent env t s = .ok false s') :
    pendingSig s = none ∧ ∃ pre st, s.sched = pre ++ st :: s'.sched ∧ st.res = .ok 0 ∧
      s'.seen = s.seen ++ handled s.act st.before := by
  unfold waitEvent at h
  obtain ⟨o, s1, h1, h2⟩ := M.bind_ok h
  cases o with
  | some sg => cases h2
  | none =>
    dsimp only at h2
    cases hs : s.sched with
    | nil => unfold getSignal at h1; rw [M.bind_apply, tick_nil hs] at h1; cases h1
    | cons st rest =>
      obtain ⟨x, g3, g4⟩ := getSignal_step hs
      rw [g3] at h1
      simp only [Res.ok.injEq, Option.map_eq_none_iff] at h1
      obtain ⟨g5, g6⟩ := h1
      have hl : ∀ (l : List Sig) (o : Option Sig), latest l o = none → l = [] ∧ o = none := by
        intro l o h
        unfold latest at h
        cases hl : l.getLast? with
        | none => rw [hl] at h; exact ⟨List.getLast?_eq_none_iff.1 hl, h⟩
        | some g => rw [hl] at h; cases h
      obtain ⟨z1, z2⟩ := hl _ _ g5
      refine ⟨z2, ?_⟩
      obtain ⟨_, s2, k1, k2⟩ := M.bind_ok h2
      cases k1
      obtain ⟨o, s3, k3, k4⟩ := M.bind_ok k2
      cases o with
      | some ev => cases k4
      | none =>
        have hk : s3 = s1 := by
          unfold peekM at k3
          cases hp : peekEvent env.seqs s1.inBuf with
          | none => rw [hp] at k3; cases k3
          | some r => rw [hp] at k3; cases r <;> cases k3; rfl
        dsimp only at k4
        subst hk
        obtain ⟨pre, stz, q1, q2, q3⟩ := waitLoop_false _ _ _ _ k4 (by rw [← g6, g4, g5])
        subst g6
        refine ⟨st :: pre, stz, ?_, q2, ?_⟩
        · exact congrArg (st :: ·) q1
        · rw [q3]
          dsimp only
          rw [z1, List.append_nil]

/-! ## C33: what a signal does -/

/-- **C33.** A size change yields the terminal's size at that moment, whatever is configured. -/
theorem C33_resize (env : REnv) (s s' : US) (o : Option Event)
    (h : handleSignal env .resize s = .ok o s') : o = some (.resize s'.size) := by
  obtain ⟨sz, s1, h1, h2⟩ := M.bind_ok h
  cases h2
  obtain ⟨s2, h3, _, w, rfl⟩ := withWriter_ok h1
  obtain ⟨_, s3, h4, h5⟩ := M.bind_ok h3
  obtain ⟨_, s4, h6, h7⟩ := M.bind_ok h5
  cases h6
  cases h7
  rfl

/-- **C33.** Interrupt, quit and suspend are reported exactly if they are in the set of signals to
report; otherwise nothing happens. -/
theorem C33_reported_iff (env : REnv) (s : US) (g : Sig) (hg : g = .int ∨ g = .tstp ∨ g = .quit) :
    handleSignal env (Sig.signal g) s =
      .ok (if s.report.contains (Sig.signal g) then some (.signal (Sig.signal g)) else none) s := by
  have : ∀ sg, (do
      if (← getS).report.contains sg then pure (some (Event.signal sg)) else pure none : M _) s =
      .ok (if s.report.contains sg then some (.signal sg) else none) s := by
    intro sg
    rw [M.bind_apply]
    dsimp only [getS]
    split <;> rfl
  rcases hg with rfl | rfl | rfl <;> exact this _

/-- **C33.** After `prepare` and anything well nested, SIGCONT re-applies that configuration: modes,
handlers and signals to report are those asked for; the signal is reported exactly if it is one of
them. -/
theorem C33_continue (env : REnv) (cfg : PrepareConfig) (p : PrepareState) (s s1 s2 s3 : US)
    (o : Option Event) (h1 : prepare env cfg s = .ok p s1) (h2 : Balanced env AnyCall s1 s2)
    (h3 : handleSignal env .continue s2 = .ok o s3) :
    ModesFor cfg s2.tio s3.tio ∧ HandlersFor cfg s2.act s3.act ∧ s3.act = s1.act ∧
    s3.report = cfg.reportSignals ∧
    o = (if cfg.reportSignals.contains .continue then some (.signal .continue) else none) := by
  obtain ⟨e1, e2⟩ := balanced_stays h2 (coherent_prepared h1)
  have hres : s2.resume = some cfg := by
    rw [e2, core_resume (prepare_ok h1).1]; rfl
  obtain ⟨_, s4, h4, h5⟩ := M.bind_ok h3
  obtain ⟨_, s5, h6, h7⟩ := M.bind_ok h4
  cases h6
  rw [hres] at h7
  obtain ⟨p', s6, h8, h9⟩ := M.bind_ok h7
  cases h9
  obtain ⟨c1, c2, c3, _⟩ := C35_prepare_establishes env cfg s2 s4 p' h8
  have key : s3 = s4 ∧
      o = (if s4.report.contains .continue then some (.signal .continue) else none) := by
    rw [M.bind_apply] at h5
    dsimp only [getS] at h5
    by_cases hc : s4.report.contains .continue = true
    · rw [if_pos hc] at h5 ⊢; cases h5; exact ⟨rfl, rfl⟩
    · rw [if_neg hc] at h5 ⊢; cases h5; exact ⟨rfl, rfl⟩
  obtain ⟨k1, k2⟩ := key
  subst k1
  rw [c3] at k2
  refine ⟨c1, c2, ?_, c3, k2⟩
  rw [← e1]
  refine sigTab_ext fun g => ?_
  by_cases hg : HandledUnder cfg g
  · rw [(c2 g).1 hg]
    refine Eq.symm ?_
    rw [e1, core_act (prepare_ok h1).1]
    exact (preparedAct_get cfg s.act g).1 hg
  · exact (c2 g).2 hg

/-- **C33.** On a terminal that is not prepared SIGCONT changes nothing. -/
theorem C33_continue_idle (env : REnv) (s : US) (h : s.resume = none) :
    handleSignal env .continue s =
      .ok (if s.report.contains .continue then some (.signal .continue) else none) s := by
  have hr : resumeM env s = .ok () s := by
    unfold resumeM
    rw [M.bind_apply]
    dsimp only [getS]
    rw [h]
    rfl
  show (resumeM env >>= _) s = _
  rw [M.bind_apply, hr]
  dsimp only
  rw [M.bind_apply]
  dsimp only [getS]
  split <;> rfl

/-- **C33.** So for `read_event`: a pending size change, with no complete event buffered, yields the
size that the terminal has when the event is returned. -/
theorem C33_read_resize (env : REnv) (t : Option Nat) (s s' : US) (st : Step) (rest : List Step)
    (o : Option Event) (hb : s.inBuf = [] ∨ Unfinished s.inBuf) (hs : s.sched = st :: rest)
    (hg : latest (handled s.act st.before) (pendingSig s) = some .winch)
    (h : readEvent env t s = .ok o s') : o = some (.resize s'.size) := by
  rw [C31_latest_first env t s st rest .winch hb hs hg] at h
  have := C33_resize env _ s' o h
  exact this

/-! ## Examples and refutations -/

/-- A terminal that handles and reports interrupt and quit. -/
def sigUS (sched : List Step) : US :=
  { demoUS [] [] sched with
    act := ⟨.ours, .ours, .ours, .other 0, .ours⟩,
    report := (SignalSet.new.insert .interrupt).insert .quit }

/-- **C31 (refuted part).** Two signals arriving before a read: only the last is reported, now or
later; the other is lost although the program asked for it. -/
theorem C31_signal_lost :
    (runU demoEnvR [.readEvent (some 0), .readEvent (some 0)] []
      (sigUS [⟨[.int, .quit], .ok 0, none⟩, okStep 0, okStep 0, okStep 0])).map
        (fun x => (x.1, x.2.2.seen, pendingSig x.2.2)) =
      some ([.event (some (.signal .quit)), .event none], [.int, .quit], none) := by
  decide +kernel

/-- C31: a history with two signals, both reported. -/
example : (runU demoEnvR [.readEvent (some 0), .readEvent (some 0)] []
      (sigUS [⟨[.int], .ok 0, none⟩, ⟨[.quit], .ok 0, none⟩])).map (fun x => (x.1, x.2.2.seen)) =
      some ([.event (some (.signal .interrupt)), .event (some (.signal .quit))], [.int, .quit]) := by
  decide +kernel

/-- C31: the most recent signal is answered; the hypotheses hold. -/
example : latest (handled (sigUS []).act [.int, .quit, .tstp]) (pendingSig (sigUS [])) = some .quit :=
  by decide

/-- **C32 (refuted part).** A signal arriving between the check and `select` does not wake the
reader: with a timeout it waits it out and answers `false` although the signal is pending; without
one it stays blocked. -/
theorem C32_missed_wakeup :
    (okOf (waitEvent demoEnvR (some 5000000) (sigUS [okStep 0, ⟨[.int], .ok 0, none⟩]))).any
      (fun x => decide (x.1 = false ∧ pendingSig x.2 = some .int ∧ x.2.waited = 5000000)) = true ∧
    waitEvent demoEnvR none (sigUS [okStep 0, ⟨[.int], .ok 0, none⟩]) = .stop .blocked := by
  constructor
  · decide +kernel
  · rfl

/-- C32: a case with an unhandled SIGTSTP interrupting first, then an interrupt. -/
example : QuietRound (sigUS []).act (⟨[], .eintr [.tstp] 7, none⟩, ⟨[], .ok 0, none⟩) ∧
    handled (sigUS []).act ([] ++ [.int] ++ []) ≠ [] := by
  refine ⟨⟨by decide, by decide, [.tstp], 7, rfl, by decide⟩, by decide⟩

/-- C32: `false` is returned when nothing happens. -/
example : (okOf (waitEvent demoEnvR (some 5) (sigUS [okStep 0, okStep 0]))).any
    (fun x => x.1 == false) = true := by decide +kernel

/-- C33: a size change is read; of two changes in a row the event has the last. -/
example : (runU demoEnvR [.readEvent none] []
      (sigUS [⟨[.winch], .ok 0, some ⟨25, 90⟩⟩, ⟨[], .ok 0, some ⟨26, 90⟩⟩])).map
    (fun x => x.1) = some [.event (some (.resize ⟨26, 90⟩))] := by decide +kernel

end Mortal
