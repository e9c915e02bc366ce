import Verif.Lemmas.Win
import Verif.Model.WinScreen

/-! # What the calls of the Windows terminal do to a console -/

namespace Mortal
open Spec

variable {u : UEnv} {k : Nat}

/-- The console is `c0` and the terminal `s0`, up to what can happen at any time. -/
def CAt (c0 : Con) (s0 : WinSt) (c : Con) (s : WinSt) : Prop :=
  (∃ q, c = { c0 with queue := q }) ∧ SameTerm s0 s

theorem CAt.refl (c : Con) (s : WinSt) : CAt c s c s := ⟨⟨c.queue, rfl⟩, .refl s⟩

theorem CAt.stable (c0 : Con) (s0 : WinSt) : Stable (CAt c0 s0) := by
  rintro c s q s' ⟨⟨q', rfl⟩, h⟩ hs
  exact ⟨⟨q, rfl⟩, h.trans hs⟩

theorem Stable.or {P Q : Con → WinSt → Prop} (hp : Stable P) (hq : Stable Q) :
    Stable (fun c s => P c s ∨ Q c s) := by
  intro c s q s' h hs
  rcases h with h | h
  · exact Or.inl (hp c s q s' h hs)
  · exact Or.inr (hq c s q s' h hs)

theorem Stable.and_const {P : Con → WinSt → Prop} {p : Prop} (hp : Stable P) :
    Stable (fun c s => p ∧ P c s) := by
  intro c s q s' h hs
  exact ⟨h.1, hp c s q s' h.2 hs⟩

/-- Use of a rule for a given console. -/
theorem Does.at {α : Type} {P : Con → WinSt → Prop} {m : WM α} {Q : α → Con → WinSt → Prop}
    {E : IoErr → Con → WinSt → Prop}
    (h : ∀ c0 s0, P c0 s0 → Does u k (CAt c0 s0) m Q E) (hg : Grows m) : Does u k P m Q E := by
  refine ⟨hg, ?_, ?_⟩
  · intro s c hp
    exact (h c s hp).ok s c (.refl c s)
  · intro s c hp
    exact (h c s hp).err s c (.refl c s)

theorem does_mode (c0 : Con) (s0 : WinSt) {E : IoErr → Con → WinSt → Prop}
    (hE : ∀ c s, CAt c0 s0 c s → E .os c s) (h : Nat) :
    Does u k (CAt c0 s0) (consoleMode h)
      (fun m c s => ((h = k ∧ m = c0.inMode) ∨ (h ≠ k ∧ ∃ o, c0.outs h = some o ∧ m = o.mode)) ∧
        CAt c0 s0 c s) E := by
  unfold consoleMode
  refine Does.bind (R := fun a c s => (a = .fail ∨ (h = k ∧ a = .mode c0.inMode) ∨
    (h ≠ k ∧ ∃ o, c0.outs h = some o ∧ a = .mode o.mode)) ∧ CAt c0 s0 c s) ?_ ?_
  · refine Does.call (CAt.stable c0 s0) _ ?_ ?_
    · intro c s a hp pos
      refine ⟨c, ?_, ?_, hp⟩
      · rcases pos with rfl | ⟨-, rfl⟩ | ⟨-, o, -, rfl⟩ <;> rfl
      · obtain ⟨⟨q, rfl⟩, -⟩ := hp
        exact pos
    · exact fun a => (CAt.stable c0 s0).and_const
  · intro a
    cases a with
    | mode m =>
      refine Does.mono (Does.pure (P := fun c s => ((h = k ∧ m = c0.inMode) ∨
        (h ≠ k ∧ ∃ o, c0.outs h = some o ∧ m = o.mode)) ∧ CAt c0 s0 c s) (E := E) m) ?_ ?_
        (fun _ _ _ h => h)
      · rintro c s ⟨h1, h2⟩
        refine ⟨?_, h2⟩
        rcases h1 with h1 | ⟨h1, h3⟩ | ⟨h1, o, h3, h4⟩
        · cases h1
        · injection h3 with h3; exact Or.inl ⟨h1, h3⟩
        · injection h4 with h4; exact Or.inr ⟨h1, o, h3, h4⟩
      · rintro a c s ⟨rfl, h⟩; exact h
    | fail =>
      exact Does.mono (Does.throw (P := CAt c0 s0) .os) (fun c s h => h.2) (fun _ _ _ h => h)
        (fun e c s h => by rw [h.1]; exact hE c s h.2)
    | _ => exact .halt _

theorem does_info (c0 : Con) (s0 : WinSt) {E : IoErr → Con → WinSt → Prop}
    (hE : ∀ c s, CAt c0 s0 c s → E .os c s) (h : Nat) :
    Does u k (CAt c0 s0) (consoleInfo h)
      (fun i c s => (∃ o, c0.outs h = some o ∧ o.Tells i) ∧ CAt c0 s0 c s) E := by
  unfold consoleInfo
  refine Does.bind (R := fun a c s => (a = .fail ∨ ∃ o i, c0.outs h = some o ∧ o.Tells i ∧
    a = .info i) ∧ CAt c0 s0 c s) ?_ ?_
  · refine Does.call (CAt.stable c0 s0) _ ?_ ?_
    · intro c s a hp pos
      refine ⟨c, ?_, ?_, hp⟩
      · rcases pos with rfl | ⟨o, i, -, -, rfl⟩ <;> rfl
      · obtain ⟨⟨q, rfl⟩, -⟩ := hp
        exact pos
    · exact fun a => (CAt.stable c0 s0).and_const
  · intro a
    cases a with
    | info i =>
      refine Does.mono (Does.pure (P := fun c s => (∃ o, c0.outs h = some o ∧ o.Tells i) ∧
        CAt c0 s0 c s) (E := E) i) ?_ ?_ (fun _ _ _ h => h)
      · rintro c s ⟨h1, h2⟩
        refine ⟨?_, h2⟩
        rcases h1 with h1 | ⟨o, i', h1, h3, h4⟩
        · cases h1
        · injection h4 with h4; subst h4; exact ⟨o, h1, h3⟩
      · rintro a c s ⟨rfl, h⟩; exact h
    | fail =>
      exact Does.mono (Does.throw (P := CAt c0 s0) .os) (fun c s h => h.2) (fun _ _ _ h => h)
        (fun e c s h => by rw [h.1]; exact hE c s h.2)
    | _ => exact .halt _

theorem does_bool (c0 : Con) (s0 : WinSt) {E : IoErr → Con → WinSt → Prop}
    (hE : ∀ c s, CAt c0 s0 c s → E .os c s) (call : ConCall)
    (hB : ∀ (c : Con) a, c.Possible k (.call call a) → a = .fail ∨ a = .ok) (R : Con → Prop)
    (h : ∀ q, ({ c0 with queue := q } : Con).Possible k (.call call .ok) →
      ∃ c1 q', R c1 ∧ ({ c0 with queue := q } : Con).step u k (.call call .ok) =
        some { c1 with queue := q' }) :
    Does u k (CAt c0 s0) (boolCall call) (fun _ c s => ∃ c1, R c1 ∧ CAt c1 s0 c s) E := by
  refine Does.boolCall (CAt.stable c0 s0) call hB ?_ ?_ hE
  · rintro c s ⟨⟨q, rfl⟩, hs⟩ pos
    obtain ⟨c1, q', r, e⟩ := h q pos
    exact ⟨_, e, c1, r, ⟨q', rfl⟩, hs⟩
  · rintro c s q s' ⟨c1, r, h⟩ hs
    exact ⟨c1, r, CAt.stable c1 s0 c s q s' h hs⟩

/-- Answers of calls that succeed or fail. -/
macro "bool_call" : tactic =>
  `(tactic| (intro c a h; rcases h with h | h <;> first | exact Or.inl h | exact Or.inr h.1))

theorem does_setMode_in (c0 : Con) (s0 : WinSt) {E : IoErr → Con → WinSt → Prop}
    (hE : ∀ c s, CAt c0 s0 c s → E .os c s) (m : BitVec 32) :
    Does u k (CAt c0 s0) (setConsoleMode k m) (fun _ => CAt { c0 with inMode := m } s0) E := by
  refine Does.mono (does_bool c0 s0 hE _ (by bool_call) (fun c => c = { c0 with inMode := m }) ?_)
    (fun _ _ h => h) ?_ (fun _ _ _ h => h)
  · intro q _
    refine ⟨_, q, rfl, ?_⟩
    simp only [Con.step, if_true]
  · rintro a c s ⟨c1, rfl, h⟩; exact h

theorem setOut_queue (c : Con) (q : List InRec) (h : Nat) (o : OutBuf) :
    ({ c with queue := q } : Con).setOut h o = { c.setOut h o with queue := q } := rfl

theorem onOut_some {c : Con} {h : Nat} {o : OutBuf} (e : c.outs h = some o)
    (f : OutBuf → Option OutBuf) : c.onOut h f = (f o).map (c.setOut h) := by
  unfold Con.onOut; rw [e]; rfl

theorem does_setMode_out (c0 : Con) (s0 : WinSt) {E : IoErr → Con → WinSt → Prop}
    (hE : ∀ c s, CAt c0 s0 c s → E .os c s) {h : Nat} (hk : h ≠ k) (m : BitVec 32) :
    Does u k (CAt c0 s0) (setConsoleMode h m) (fun _ c s => ∃ o, c0.outs h = some o ∧
      CAt (c0.setOut h { o with mode := m }) s0 c s) E := by
  refine Does.mono (does_bool c0 s0 hE _ (by bool_call)
    (fun c => ∃ o, c0.outs h = some o ∧ c = c0.setOut h { o with mode := m }) ?_)
    (fun _ _ h => h) ?_ (fun _ _ _ h => h)
  · intro q pos
    rcases pos with pos | ⟨-, pos | ⟨o, ho⟩⟩
    · cases pos
    · exact absurd pos hk
    · refine ⟨_, q, ⟨o, ho, rfl⟩, ?_⟩
      simp only [Con.step, if_neg hk]
      rw [onOut_some (c := { c0 with queue := q }) ho]
      rfl
  · rintro a c s ⟨c1, ⟨o, ho, rfl⟩, h⟩; exact ⟨o, ho, h⟩

/-- `report_signals` asks for a signal that exists on Windows. -/
def reports (cfg : PrepareConfig) : Bool :=
  cfg.reportSignals.intersects (SignalSet.orSignals .break .interrupt)

/-- The terminal after `prepare`. -/
def preparedSt (cfg : PrepareConfig) (s : WinSt) : WinSt :=
  { s with
    rd := if cfg.enableMouse then { s.rd with track := cfg.alwaysTrackMotion } else s.rd
    catchSet := if reports cfg then catchBits cfg.reportSignals else s.catchSet }

/-- The console after `prepare`. -/
def preparedCon (cfg : PrepareConfig) (c : Con) : Con :=
  { c with inMode := prepareMode cfg c.inMode
           handlers := if reports cfg then c.handlers + 1 else c.handlers }

theorem does_atomic {P : Con → WinSt → Prop} {E : IoErr → Con → WinSt → Prop} (hP : Stable P) :
    Does u k P (conCall .atomic) (fun _ => P) E := by
  refine Does.call hP _ ?_ (fun _ => hP)
  intro c s a hp _
  refine ⟨c, ?_, hp⟩
  cases a <;> rfl

theorem SameTerm.setCatch {a b : WinSt} (h : SameTerm a b) (x : BitVec 64) :
    SameTerm { a with catchSet := x } { b with catchSet := x } :=
  ⟨h.outH, h.theme, h.rd, rfl⟩

theorem does_prepare (c0 : Con) (s0 : WinSt) (t : WTerm) (cfg : PrepareConfig) :
    Does u t.inH (CAt c0 s0) (winPrepare t cfg)
      (fun p c s => p = ⟨c0.inMode, reports cfg⟩ ∧ CAt (preparedCon cfg c0) (preparedSt cfg s0) c s)
      (fun _ c _ => (∃ q, c = { c0 with queue := q }) ∨
        (∃ q, c = { c0 with inMode := prepareMode cfg c0.inMode, queue := q })) := by
  unfold winPrepare
  refine Does.bind (does_mode c0 s0 (fun c s h => Or.inl h.1) t.inH) ?_
  intro old
  let s1 : WinSt := { s0 with
    rd := if cfg.enableMouse then { s0.rd with track := cfg.alwaysTrackMotion } else s0.rd }
  let R : Con → WinSt → Prop := fun c s => old = c0.inMode ∧ CAt c0 s1 c s
  refine Does.bind (R := fun _ => R) ?_ fun _ => ?_
  · refine Does.when (fun hm => ?_) (fun hm => ?_)
    · refine Does.modify (fun _ => rfl) ?_
      rintro c s ⟨h1, h2⟩
      refine ⟨?_, h2.1, ?_⟩
      · rcases h1 with ⟨-, h1⟩ | ⟨h1, -⟩
        · exact h1
        · exact absurd rfl h1
      · refine ⟨h2.2.outH, h2.2.theme, ?_, h2.2.catchSet⟩
        show _ = s1.rd
        simp only [s1, hm, if_true]
        rw [h2.2.rd]
    · rintro c s ⟨h1, h2⟩
      refine ⟨?_, h2.1, ?_⟩
      · rcases h1 with ⟨-, h1⟩ | ⟨h1, -⟩
        · exact h1
        · exact absurd rfl h1
      · refine ⟨h2.2.outH, h2.2.theme, ?_, h2.2.catchSet⟩
        show _ = s1.rd
        simp only [s1, hm]
        exact h2.2.rd
  · refine Does.mono (Does.frame (p := old = c0.inMode) (P := CAt c0 s1)
      (Q := fun p c s => p = ⟨old, reports cfg⟩ ∧
        CAt { c0 with inMode := prepareMode cfg old
                      handlers := if reports cfg then c0.handlers + 1 else c0.handlers }
          (preparedSt cfg s0) c s)
      (E := fun _ c _ => (∃ q, c = { c0 with queue := q }) ∨
        (∃ q, c = { c0 with inMode := prepareMode cfg old, queue := q })) ?_) (fun _ _ h => h) ?_ ?_
    · refine Does.bind (does_setMode_in c0 s1 (fun c s h => Or.inl h.1) _) fun _ => ?_
      let c1 : Con := { c0 with inMode := prepareMode cfg old }
      have h1 : ∀ c s, CAt c1 s1 c s → (∃ q, c = { c0 with queue := q }) ∨
          (∃ q, c = { c0 with inMode := prepareMode cfg old, queue := q }) := by
        rintro c s ⟨⟨q, rfl⟩, -⟩
        exact Or.inr ⟨q, rfl⟩
      refine Does.ite (fun hr => ?_) (fun hr => ?_)
      · let s2 : WinSt := { s1 with catchSet := catchBits cfg.reportSignals }
        have hr' : reports cfg = true := hr
        have hs2 : preparedSt cfg s0 = s2 := by
          unfold preparedSt
          rw [hr', if_pos rfl]
        refine Does.bind (R := fun _ => CAt c1 s2) ?_ fun _ => ?_
        · unfold catchSignals
          refine Does.bind (does_atomic (CAt.stable c1 s1)) fun _ => ?_
          refine Does.modify (fun _ => rfl) ?_
          rintro c s ⟨h1, h2⟩
          exact ⟨h1, h2.setCatch _⟩
        · refine Does.bind (does_bool c1 s2 (fun c s h => ?_) _ (by bool_call)
            (fun c => c = { c1 with handlers := c1.handlers + 1 }) ?_) fun _ => ?_
          · obtain ⟨⟨q, rfl⟩, -⟩ := h
            exact Or.inr ⟨q, rfl⟩
          · intro q _
            exact ⟨_, q, rfl, rfl⟩
          · refine Does.mono (Does.pure _) (fun _ _ h => h) ?_ (fun _ _ _ h => h)
            rintro p c s ⟨rfl, c2, rfl, h⟩
            rw [hr', hs2]
            exact ⟨rfl, h⟩
      · have hr' : reports cfg = false := by
          have : ¬ reports cfg = true := hr
          simpa using this
        refine Does.mono (Does.pure _) (fun _ _ h => h) ?_ (fun _ _ _ h => h)
        rintro p c s ⟨rfl, h⟩
        rw [hr']
        refine ⟨rfl, h.1, ?_⟩
        have : preparedSt cfg s0 = s1 := by
          unfold preparedSt
          rw [hr']; rfl
        rw [this]
        exact h.2
    · rintro p c s ⟨rfl, h⟩; exact h
    · rintro e c s ⟨rfl, h⟩; exact h

/-- The console after `restore`. -/
def restoredCon (p : WinPrepared) (c : Con) : Con :=
  { c with inMode := p.oldIn ||| ENABLE_EXTENDED_FLAGS
           handlers := if p.clearHandler then c.handlers - 1 else c.handlers }

theorem does_restore (c0 : Con) (s0 : WinSt) (t : WTerm) (p : WinPrepared) :
    Does u t.inH (CAt c0 s0) (winRestore t p) (fun _ => CAt (restoredCon p c0) s0)
      (fun _ c s => CAt c0 s0 c s ∨ CAt { c0 with handlers := c0.handlers - 1 } s0 c s) := by
  unfold winRestore
  let c1 : Con := { c0 with handlers := if p.clearHandler then c0.handlers - 1 else c0.handlers }
  refine Does.bind (R := fun _ => CAt c1 s0) ?_ fun _ => ?_
  · refine Does.when (fun hc => ?_) (fun hc => ?_)
    · refine Does.mono (does_bool c0 s0 (E := fun _ => CAt c0 s0)
        (fun c s h => h) _ (by bool_call)
        (fun c => c = { c0 with handlers := c0.handlers - 1 }) ?_) (fun _ _ h => h) ?_ ?_
      · intro q _; exact ⟨_, q, rfl, rfl⟩
      · rintro a c s ⟨c1', rfl, h⟩
        simp only [c1, hc, if_true]
        exact h
      · intro e c s h; exact Or.inl h
    · intro c s h
      simp only [c1, hc]
      exact h
  · refine Does.mono (does_setMode_in c1 s0 (E := fun _ => CAt c1 s0)
      (fun c s h => h) _) (fun _ _ h => h)
      (fun _ _ _ h => h) ?_
    intro e c s h
    cases hc : p.clearHandler with
    | true => exact Or.inr (by simp only [c1, hc, if_true] at h; exact h)
    | false => exact Or.inl (by simp only [c1, hc] at h; exact h)

end Mortal
