import Verif.Spec.SignalFate
import Verif.Props.Signals

/-! # C31 and C32: exactly what becomes of each signal -/

namespace Mortal
open Spec

theorem onePlace_append {l1 l2 : List SigItem} : ∀ {o o' : Option Sig},
    OnePlace o (l1 ++ l2) o' ↔ ∃ m, OnePlace o l1 m ∧ OnePlace m l2 o' := by
  induction l1 with
  | nil => intro o o'; exact ⟨fun h => ⟨o, rfl, h⟩, fun ⟨m, h, h'⟩ => by rw [← h]; exact h'⟩
  | cons x l1 ih =>
    intro o o'
    cases x with
    | arrive g => exact ih
    | take r =>
      constructor
      · rintro ⟨g, h1, h2, h3⟩
        obtain ⟨m, h4, h5⟩ := ih.1 h3
        exact ⟨m, ⟨g, h1, h2, h4⟩, h5⟩
      · rintro ⟨m, ⟨g, h1, h2, h4⟩, h5⟩
        exact ⟨g, h1, h2, ih.2 ⟨m, h4, h5⟩⟩

theorem onePlace_arrivals (n : List Sig) : ∀ o : Option Sig,
    OnePlace o (n.map .arrive) (latest n o) := by
  induction n with
  | nil => intro o; rfl
  | cons g n ih =>
    intro o
    show OnePlace (some g) (n.map .arrive) _
    have : latest (g :: n) o = latest n (some g) := by
      unfold latest
      cases n with
      | nil => rfl
      | cons a n =>
        rw [List.getLast?_cons_cons]
        cases h : (a :: n).getLast? with
        | none => simp at h
        | some x => rfl
    rw [this]
    exact ih _

theorem arrivals_append (l1 l2 : List SigItem) :
    arrivals (l1 ++ l2) = arrivals l1 ++ arrivals l2 := by
  induction l1 with
  | nil => rfl
  | cons x l1 ih => cases x <;> simp [arrivals, ih]

theorem sigTakes_append (l1 l2 : List SigItem) : sigTakes (l1 ++ l2) = sigTakes l1 ++ sigTakes l2 := by
  induction l1 with
  | nil => rfl
  | cons x l1 ih => cases x <;> simp [sigTakes, ih]

theorem arrivals_map (n : List Sig) : arrivals (n.map .arrive) = n := by
  induction n with
  | nil => rfl
  | cons g n ih => simp [arrivals, ih]

theorem sigTakes_map (n : List Sig) : sigTakes (n.map .arrive) = [] := by
  induction n with
  | nil => rfl
  | cons g n ih => simp [sigTakes, ih]

/-- One call. -/
theorem sigCall_place {r : URet} {s s' : US} (h : SigCall r s s') :
    ∃ l, s'.seen = s.seen ++ arrivals l ∧ OnePlace (pendingSig s) l (pendingSig s') ∧
      (sigTakes l = [r] ∨ sigTakes l = [] ∧ reportedSig r = none) := by
  rcases h with ⟨h0, n, h1, h2⟩ | ⟨g, ⟨n1, n2, h1, h2, h3⟩, hr⟩
  · refine ⟨n.map .arrive, by rw [arrivals_map, h1], ?_, .inr ⟨sigTakes_map n, h0⟩⟩
    rw [h2]; exact onePlace_arrivals n _
  · refine ⟨n1.map .arrive ++ (.take r :: n2.map .arrive), ?_, ?_, .inl ?_⟩
    · rw [arrivals_append, arrivals_map]
      show _ = _ ++ (n1 ++ arrivals (n2.map .arrive))
      rw [arrivals_map, h1, List.append_assoc]
    · refine onePlace_append.2 ⟨_, onePlace_arrivals n1 _, g, h2, ?_, ?_⟩
      · rcases hr with hr | hr | ⟨hr, hw, _⟩
        · exact .inl hr
        · exact .inr (.inl hr)
        · exact .inr (.inr ⟨hr, hw⟩)
      · rw [h3]; exact onePlace_arrivals n2 _
    · rw [sigTakes_append, sigTakes_map]
      show [] ++ (r :: sigTakes (n2.map .arrive)) = [r]
      rw [sigTakes_map]; rfl

/-- C31 for every history of calls and every arrival of signals: the terminal is one place for a
signal. There is an order of the arrivals and of the calls that take a signal in which every call
that takes one takes the signal that arrived last before it and since the one before. All reports
come from such calls. -/
theorem C31_one_place (env : REnv) (K : PMap SeqData) (hm : Table env.seqs K) (ops : List UOp) :
    ∀ (st st' : List PrepareState) (s s' : US) (rs : List URet),
      runU env ops st s = some (rs, st', s') →
      ∃ l, s'.seen = s.seen ++ arrivals l ∧ OnePlace (pendingSig s) l (pendingSig s') ∧
        (sigTakes l).Sublist rs ∧ rs.filterMap reportedSig = (sigTakes l).filterMap reportedSig := by
  induction ops with
  | nil =>
    intro st st' s s' rs h
    cases h
    exact ⟨[], by simp [arrivals], rfl, by simp [sigTakes], rfl⟩
  | cons op ops ih =>
    intro st st' s s' rs h
    unfold runU at h
    simp only [Option.bind_eq_bind, Option.bind_eq_some_iff, Option.pure_def,
      Option.some.injEq, Prod.mk.injEq] at h
    obtain ⟨⟨r, st1, s1⟩, h1, ⟨rs1, st2, s2⟩, h2, h3, h4, h5⟩ := h
    dsimp only at h2 h3 h4 h5
    subst h3 h4 h5
    obtain ⟨l1, a1, p1, t1⟩ := sigCall_place (run_sig hm h1)
    obtain ⟨l2, a2, p2, t2, f2⟩ := ih _ _ _ _ _ h2
    refine ⟨l1 ++ l2, by rw [a2, a1, arrivals_append, List.append_assoc],
      onePlace_append.2 ⟨_, p1, p2⟩, ?_, ?_⟩
    · rw [sigTakes_append]
      rcases t1 with t1 | ⟨t1, -⟩
      · rw [t1]; exact t2.cons_cons r
      · rw [t1]; exact t2.cons r
    · rw [sigTakes_append]
      rcases t1 with t1 | ⟨t1, h0⟩
      · rw [t1, List.singleton_append, List.filterMap_cons, List.filterMap_cons, f2]
      · rw [t1, List.filterMap_cons, h0, f2]; rfl

/-- C31: so each signal that arrives has exactly one of three fates: the next thing is a call that
takes it, and answers it; or another signal arrives first, and it is lost; or nothing comes after
it, and it is still pending. -/
theorem C31_fate_partial (o o' : Option Sig) (l : List SigItem) (h : OnePlace o l o')
    (a b : List SigItem) (g : Sig) (hl : l = a ++ .arrive g :: b) :
    (∃ r c, b = .take r :: c ∧ AnswersSig g r) ∨ (∃ g' c, b = .arrive g' :: c) ∨
      (b = [] ∧ o' = some g) := by
  subst hl
  obtain ⟨m, -, h2⟩ := onePlace_append.1 h
  cases b with
  | nil => exact .inr (.inr ⟨rfl, h2⟩)
  | cons x c =>
    cases x with
    | arrive g' => exact .inr (.inl ⟨g', c, rfl⟩)
    | take r =>
      obtain ⟨g1, e, ha, -⟩ := h2
      cases e
      exact .inl ⟨r, c, rfl, ha⟩

/-- The two signals of `C31_signal_lost` in this form, and a history in which both are answered. -/
example : OnePlace none [.arrive .int, .arrive .quit, .take (.event (some (.signal .quit)))] none ∧
    OnePlace none [.arrive .int, .take (.event (some (.signal .interrupt))), .arrive .quit,
      .take (.event (some (.signal .quit)))] none :=
  ⟨⟨.quit, rfl, .inl rfl, rfl⟩, ⟨.int, rfl, .inl rfl, .quit, rfl, .inl rfl, rfl⟩⟩

/-! ## C32 -/

theorem waitLoop_misses (rounds : List (Step × Step)) : ∀ (n : Nat) (t : Option Nat) (s : US)
    (st1 : Step) (rest : List Step),
    rounds.length < n → (∀ r ∈ rounds, QuietRound s.act r) → pendingSig s = none →
    s.sched = roundSteps rounds ++ st1 :: rest → st1.res = .ok 0 →
    (t = none → waitLoop n t s = .stop .blocked) ∧
    (t ≠ none → ∃ s', waitLoop n t s = .ok false s' ∧ s'.sched = rest ∧
      pendingSig s' = (handled s.act st1.before).getLast?) := by
  induction rounds with
  | nil =>
    intro n t s st1 rest hn _ hp hs hr
    obtain ⟨n, rfl⟩ : ∃ m, n = m + 1 := ⟨n - 1, by simp at hn; omega⟩
    have hs : s.sched = st1 :: rest := hs
    obtain ⟨x, h1, h2⟩ := deliverAll_form st1.before (s.advance st1 rest)
    have hb : waitLoop (n + 1) t s = (sysSelect t >>= fun r => match r with
        | .done k => pure (k != 0)
        | .eintr e => getSignal >>= fun o => match o with
          | some _ => pure true
          | none => waitLoop n (t.map (· - e))) s := rfl
    rw [hb, M.bind_apply]
    unfold sysSelect
    rw [M.bind_apply, tick_step hs]
    dsimp only
    rw [hr]
    cases t with
    | none => exact ⟨fun _ => rfl, fun h => absurd rfl h⟩
    | some t =>
      refine ⟨nofun, fun _ => ?_⟩
      refine ⟨_, rfl, ?_, ?_⟩
      · dsimp only; rw [h1]
      · show pendingSig (deliverAll (s.advance st1 rest) st1.before) = _
        rw [h2]
        have : pendingSig (s.advance st1 rest) = none := hp
        rw [this]
        unfold latest
        cases (handled (s.advance st1 rest).act st1.before).getLast? <;> rfl
  | cons r rounds ih =>
    intro n t s st1 rest hn hq hp hs hr
    obtain ⟨n, rfl⟩ : ∃ m, n = m + 1 := ⟨n - 1, by simp at hn; omega⟩
    obtain ⟨q1, q2, d', e', q3, q4⟩ := hq r (by simp)
    obtain ⟨s1, e1, h1, h2, h3, _, h4, h5⟩ := select_eintr t
      (show s.sched = r.1 :: (r.2 :: (roundSteps rounds ++ st1 :: rest)) from hs) q3
    rw [handled_append, q1, q4] at h5
    obtain ⟨x, h6, h7⟩ := getSignal_step h2
    rw [h3, q2, latest_nil] at h6 h7
    have hp1 : pendingSig s1 = none := h5.trans hp
    rw [hp1] at h6
    unfold waitLoop
    rw [M.bind_apply, h1]
    dsimp only
    rw [M.bind_apply, h6]
    dsimp only [Option.map_none]
    have := ih n (t.map (· - e1)) _ st1 rest (by simpa using hn) (fun r' hr' => h3 ▸ hq r' (by simp [hr']))
      (h7.trans hp1) rfl hr
    refine ⟨fun ht => this.1 (by rw [ht]; rfl), fun ht => ?_⟩
    obtain ⟨s', k1, k2, k3⟩ := this.2 (fun h => ht (Option.map_eq_none_iff.1 h))
    refine ⟨s', k1, k2, ?_⟩
    rw [k3]
    show (handled s1.act st1.before).getLast? = _
    rw [h3]

/-- C32, exactly the window: whichever handled signals arrive between the last check and the
`select` that follows it, the wait goes on to its end. With a timeout `wait_event` waits it out and
answers `false` although the last of them is pending; without one it does not return until there is
input or another signal. With `C32_already_pending`, `C32_interrupted` and `C32_false_partial` this
decides for every moment whether a signal that arrives then is noticed. -/
theorem C32_window (env : REnv) (t : Option Nat) (s : US) (st0 st1 : Step)
    (rounds : List (Step × Step)) (rest : List Step)
    (hb : s.inBuf = [] ∨ Unfinished s.inBuf) (hp : pendingSig s = none)
    (h0 : handled s.act st0.before = []) (hq : ∀ r ∈ rounds, QuietRound s.act r)
    (hs : s.sched = st0 :: (roundSteps rounds ++ st1 :: rest)) (hr : st1.res = .ok 0) :
    (t = none → waitEvent env t s = .stop .blocked) ∧
    (t ≠ none → ∃ s', waitEvent env t s = .ok false s' ∧ s'.sched = rest ∧
      pendingSig s' = (handled s.act st1.before).getLast?) := by
  obtain ⟨x, h1, h2⟩ := getSignal_step hs
  rw [h0, latest_nil, hp] at h1 h2
  have hpk : ∀ s1 : US, peekM env s.inBuf s1 = .ok none s1 := by
    intro s1
    unfold peekM peekEvent
    rcases hb with hb | hb
    · rw [hb]; rfl
    · rw [utf8Prefix_unfinished hb]; rfl
  unfold waitEvent
  rw [M.bind_apply, h1]
  dsimp only [Option.map_none]
  rw [M.bind_apply]
  dsimp only [getS]
  rw [M.bind_apply, hpk _]
  dsimp only
  refine waitLoop_misses rounds _ t _ st1 rest ?_ hq h2 rfl hr
  have := roundSteps_length rounds
  simp only [List.length_append, List.length_cons]
  omega

/-- An interruption by a signal that is not handled, then SIGINT and SIGQUIT in the window. -/
example : pendingSig (sigUS []) = none ∧
    (∀ r ∈ [((⟨[], .eintr [.tstp] 7, none⟩, ⟨[], .ok 0, none⟩) : Step × Step)],
      QuietRound (sigUS []).act r) ∧
    (handled (sigUS []).act [.int, .quit]).getLast? = some .quit := by
  refine ⟨by decide, ?_, by decide⟩
  intro r hr
  simp at hr
  subst hr
  exact ⟨by decide, by decide, [.tstp], 7, rfl, by decide⟩

end Mortal
