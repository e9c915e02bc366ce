import Verif.Lemmas.WinRead
import Verif.Spec.WinSignal

/-! # Console control events and the variables of the handler -/

namespace Mortal
open Spec

/-- The signal kept. -/
def kept (s : WinSt) : Option Signal := convCtrl (s.last.truncate 32)

/-- Bookkeeping along records (nothing is reported). -/
def keptAfter : Option Signal → List WEv → Option Signal
  | p, [] => p
  | _, .ctrl t true _ :: l => keptAfter (sigOfType t) l
  | p, _ :: l => keptAfter p l

theorem keptAfter_append (p : Option Signal) (a b : List WEv) :
    keptAfter p (a ++ b) = keptAfter (keptAfter p a) b := by
  induction a generalizing p with
  | nil => rfl
  | cons e a ih =>
    cases e with
    | ctrl t h w => cases h <;> exact ih _
    | input r => exact ih _
    | call c a => exact ih _

theorem account_ev (p : Option Signal) (a : List WEv) (l : List Note) :
    account p (a.map .ev ++ l) = account (keptAfter p a) l := by
  induction a generalizing p with
  | nil => rfl
  | cons e a ih =>
    cases e with
    | ctrl t h w => cases h <;> exact ih _
    | input r => exact ih _
    | call c a => exact ih _

/-- The control events are handled as the set of bits says. -/
def HandledAs (bits : BitVec 64) : WEv → Prop
  | .ctrl t h _ => h = true ↔ (t = CTRL_BREAK ∨ t = CTRL_C) ∧ bits &&& (1 <<< t.toNat) ≠ 0
  | _ => True

/-- What code does to the signals, if it does not touch the variables of the handler itself. -/
def Follows (s s' : WinSt) : Prop :=
  ∃ D, s'.log = s.log ++ D ∧ kept s' = keptAfter (kept s) D ∧ s'.catchSet = s.catchSet ∧
    ∀ e ∈ D, HandledAs s.catchSet e

theorem Follows.refl (s : WinSt) : Follows s s := ⟨[], by simp, rfl, rfl, by simp⟩

theorem Follows.trans {a b c : WinSt} (h : Follows a b) (h' : Follows b c) : Follows a c := by
  obtain ⟨D, h1, h2, h3, h4⟩ := h
  obtain ⟨D', g1, g2, g3, g4⟩ := h'
  refine ⟨D ++ D', by rw [g1, h1, List.append_assoc], by rw [g2, h2, keptAfter_append], g3.trans h3, ?_⟩
  intro e he
  rcases List.mem_append.mp he with he | he
  · exact h4 e he
  · rw [← h3]; exact g4 e he

/-- Code of that kind. -/
def Minds {α : Type} (m : WM α) : Prop :=
  ∀ s, (∀ a s', m s = .ok a s' → Follows s s') ∧ (∀ e s', m s = .err e s' → Follows s s')

theorem Minds.pure {α : Type} (a : α) : Minds (pure a : WM α) :=
  fun s => ⟨fun _ _ h => by cases h; exact .refl s, fun _ _ h => by cases h⟩

theorem Minds.bind {α β : Type} {m : WM α} {f : α → WM β} (h : Minds m) (hf : ∀ a, Minds (f a)) :
    Minds (m >>= f) := by
  intro s
  simp only [sm_bind]
  constructor
  · intro b s' e
    cases hm : m s with
    | ok a s1 => rw [hm] at e; exact ((h s).1 a s1 hm).trans ((hf a s1).1 b s' e)
    | err e' s1 => rw [hm] at e; cases e
    | stop w => rw [hm] at e; cases e
  · intro b s' e
    cases hm : m s with
    | ok a s1 => rw [hm] at e; exact ((h s).1 a s1 hm).trans ((hf a s1).2 b s' e)
    | err e' s1 => rw [hm] at e; cases e; exact (h s).2 _ _ hm
    | stop w => rw [hm] at e; cases e

theorem minds_get : Minds (SM.get : WM WinSt) :=
  fun s => ⟨fun _ _ h => by cases h; exact .refl s, fun _ _ h => by cases h⟩

theorem minds_throw {α : Type} (e : IoErr) : Minds (SM.throw e : WM α) :=
  fun s => ⟨fun _ _ h => by (cases h), fun _ _ h => by cases h; exact .refl s⟩

theorem minds_halt {α : Type} (w : Stop) : Minds (SM.halt w : WM α) :=
  fun s => ⟨fun _ _ h => by (cases h), fun _ _ h => by (cases h)⟩

theorem minds_ofPanics {α : Type} (x : Panics α) : Minds (SM.ofPanics x : WM α) := by
  cases x with
  | none => exact minds_halt _
  | some a => exact Minds.pure a

theorem minds_modify {f : WinSt → WinSt} (h1 : ∀ s, (f s).log = s.log) (h2 : ∀ s, (f s).last = s.last)
    (h3 : ∀ s, (f s).catchSet = s.catchSet) : Minds (SM.modify f) := by
  refine fun s => ⟨fun _ _ h => ?_, fun _ _ h => by cases h⟩
  cases h
  refine ⟨[], by simp [h1], ?_, h3 s, by simp⟩
  unfold kept
  rw [h2]; rfl

theorem conv_sig {t : BitVec 32} (h : t = CTRL_BREAK ∨ t = CTRL_C) :
    convCtrl ((t.setWidth 64).truncate 32) = sigOfType t := by
  rcases h with rfl | rfl <;> decide

theorem follows_hap (s : WinSt) (e : WHap) : Follows s (e.run s) := by
  cases e with
  | input r => exact ⟨[.input r], rfl, rfl, rfl, by simp [HandledAs]⟩
  | ctrl t w =>
    simp only [WHap.run, ctrlHandler]
    by_cases h : t = CTRL_BREAK ∨ t = CTRL_C
    · rw [if_pos h]
      by_cases hb : s.catchSet &&& (1 <<< t.toNat) = 0
      · rw [if_pos hb]
        refine ⟨[.ctrl t false false], rfl, rfl, rfl, fun e he => ?_⟩
        rw [List.mem_singleton] at he; subst he
        exact ⟨fun h => by (cases h), fun h => absurd hb h.2⟩
      · rw [if_neg hb]
        refine ⟨[.ctrl t true w], rfl, conv_sig h, rfl, fun e he => ?_⟩
        rw [List.mem_singleton] at he; subst he
        exact ⟨fun _ => ⟨h, hb⟩, fun _ => rfl⟩
    · rw [if_neg h]
      exact ⟨[.ctrl t false false], rfl, rfl, rfl, by simp [HandledAs, h]⟩

theorem follows_haps (l : List WHap) (s : WinSt) : Follows s (l.foldl WHap.run s) := by
  induction l generalizing s with
  | nil => exact .refl s
  | cons e l ih => exact (follows_hap s e).trans (ih _)

theorem minds_conCall (c : ConCall) : Minds (conCall c) := by
  intro s
  unfold conCall
  cases ho : s.os with
  | nil => exact ⟨fun _ _ h => by (cases h), fun _ _ h => by (cases h)⟩
  | cons st os =>
    refine ⟨fun a s' h => ?_, fun _ _ h => by cases h⟩
    cases h
    have h1 : Follows s { s with os := os } := ⟨[], by simp, rfl, rfl, by simp⟩
    refine (h1.trans (follows_haps st.haps _)).trans ?_
    exact ⟨[.call c st.ans], rfl, rfl, rfl, by simp [HandledAs]⟩

theorem minds_boolCall (c : ConCall) : Minds (boolCall c) :=
  Minds.bind (minds_conCall c) fun a => by
    cases a <;> first | exact Minds.pure _ | exact minds_throw _ | exact minds_halt _

theorem minds_info (h : Nat) : Minds (consoleInfo h) :=
  Minds.bind (minds_conCall _) fun a => by
    cases a <;> first | exact Minds.pure _ | exact minds_throw _ | exact minds_halt _

theorem minds_mode (h : Nat) : Minds (consoleMode h) :=
  Minds.bind (minds_conCall _) fun a => by
    cases a <;> first | exact Minds.pure _ | exact minds_throw _ | exact minds_halt _

theorem minds_when {p : Prop} [Decidable p] {m : WM Unit} (h : Minds m) : Minds (SM.when p m) := by
  unfold SM.when
  split
  · exact h
  · exact Minds.pure _

/-- Code made of such calls. -/
macro "minds_tac" : tactic =>
  `(tactic| repeat' (first
    | exact Minds.pure _ | exact minds_get | exact minds_ofPanics _ | exact minds_boolCall _
    | exact minds_throw _ | exact minds_halt _ | exact minds_info _ | exact minds_mode _
    | exact minds_conCall _ | exact minds_modify (fun _ => rfl) (fun _ => rfl) (fun _ => rfl)
    | refine Minds.bind ?_ fun _ => ?_ | refine minds_when ?_ | split))

theorem minds_getCtrl : Minds getCtrl := by unfold getCtrl; minds_tac

theorem minds_wait (t : WTerm) (d : Option Duration) : Minds (winWait t d) := by
  unfold winWait
  refine Minds.bind minds_getCtrl fun r => ?_
  minds_tac

theorem minds_writeLoop (h : Nat) (f : Nat) (buf : List (BitVec 16)) : Minds (writeLoop h f buf) := by
  induction f generalizing buf with
  | zero => unfold writeLoop; minds_tac
  | succ f ih =>
    unfold writeLoop
    split
    · refine Minds.bind (minds_conCall _) fun a => ?_
      cases a <;> first | exact ih _ | exact minds_throw _ | exact minds_halt _
    · exact Minds.pure _

theorem minds_attr (t : WTerm) (op : AttrOp) : Minds (op.run t) := by
  cases op <;> simp only [AttrOp.run] <;>
    simp only [winSetFg, winSetBg, winSetStyle, winAddStyle, winRemoveStyle, winSetAttributes,
      winClearAttributes, updateAttrs] <;> minds_tac

/-! ## Taking the signal -/

/-- `take_signal`: what was kept when it was taken. -/
theorem takeCtrl_ok {s s' : WinSt} {r : Option Signal} (h : takeCtrl s = .ok r s') :
    ∃ D a, s'.log = s.log ++ D ++ [.call .atomic a] ∧ r = keptAfter (kept s) D ∧ kept s' = none ∧
      s'.catchSet = s.catchSet ∧ ∀ e ∈ D, HandledAs s.catchSet e := by
  unfold takeCtrl at h
  simp only [sm_bind, sm_get, sm_modify] at h
  unfold conCall at h
  cases ho : s.os with
  | nil => rw [ho] at h; cases h
  | cons st os =>
    rw [ho] at h
    dsimp only at h
    obtain ⟨D, h1, h2, h3, h4⟩ := follows_haps st.haps { s with os := os }
    cases h
    refine ⟨D, st.ans, ?_, ?_, (by decide : convCtrl (noSignal.truncate 32) = none), h3, h4⟩
    · show _ = _
      dsimp only
      rw [h1]
    · exact h2

theorem takeCtrl_not_err {s s' : WinSt} {e : IoErr} : takeCtrl s ≠ .err e s' := by
  intro h
  unfold takeCtrl at h
  simp only [sm_bind, sm_get, sm_modify] at h
  unfold conCall at h
  cases ho : s.os with
  | nil => rw [ho] at h; cases h
  | cons st os => rw [ho] at h; cases h

/-- What a reading call does: either nothing was kept when it looked (or it did not look), and it
follows; or it reports what was kept. -/
def Reads (s s' : WinSt) (r : Option Event) : Prop :=
  ∃ D, s'.log = s.log ++ D ∧ s'.catchSet = s.catchSet ∧ (∀ e ∈ D, HandledAs s.catchSet e) ∧
    ((kept s' = keptAfter (kept s) D ∧ reportOf r = []) ∨
      ∃ sig, keptAfter (kept s) D = some sig ∧ kept s' = none ∧ r = some (.signal sig))

theorem Reads.of_follows {s s' : WinSt} {r : Option Event} (h : Follows s s') (hr : reportOf r = []) :
    Reads s s' r := by
  obtain ⟨D, h1, h2, h3, h4⟩ := h
  exact ⟨D, h1, h3, h4, Or.inl ⟨h2, hr⟩⟩

/-- Waiting, taking the signal and then `f`, if there is none. -/
theorem reads_take {α : Type} {t : WTerm} {d : Option Duration} {y : α} {g : Signal → α}
    {f : WM α} {ev : α → Option Event} (hf : Minds f) (hy : ev y = none)
    (hg : ∀ sig, ev (g sig) = some (.signal sig))
    (hev : ∀ s a s', f s = .ok a s' → reportOf (ev a) = []) (s : WinSt) :
    (∀ a s', (do
      if !(← winWait t d) then pure y
      else
        match ← takeCtrl with
        | some sig => pure (g sig)
        | none => f : WM α) s = .ok a s' → Reads s s' (ev a)) ∧
    (∀ e s', (do
      if !(← winWait t d) then pure y
      else
        match ← takeCtrl with
        | some sig => pure (g sig)
        | none => f : WM α) s = .err e s' → Follows s s') := by
  simp only [sm_bind]
  have hw := minds_wait t d s
  cases hm : winWait t d s with
  | stop w => exact ⟨fun _ _ h => by (cases h), fun _ _ h => by (cases h)⟩
  | err e s1 =>
    refine ⟨fun _ _ h => by (cases h), fun _ _ h => ?_⟩
    cases h
    exact hw.2 _ _ hm
  | ok b s1 =>
    have h1 := hw.1 _ _ hm
    cases b with
    | false =>
      refine ⟨fun a s' h => ?_, fun _ _ h => by (cases h)⟩
      cases h
      exact .of_follows h1 (by rw [hy]; rfl)
    | true =>
      simp only [Bool.not_true, Bool.false_eq_true, if_false, sm_bind]
      cases ht : takeCtrl s1 with
      | stop w => exact ⟨fun _ _ h => by (cases h), fun _ _ h => by (cases h)⟩
      | err e s2 => exact absurd ht takeCtrl_not_err
      | ok r s2 =>
        obtain ⟨D, h2, h3, h4⟩ := h1
        obtain ⟨D', a', k1, k2, k3, k4, k5⟩ := takeCtrl_ok ht
        have hlog : s2.log = s.log ++ (D ++ D' ++ [.call .atomic a']) := by
          rw [k1, h2]; simp
        have hh : ∀ e ∈ D ++ D' ++ [WEv.call .atomic a'], HandledAs s.catchSet e := by
          intro e he
          rcases List.mem_append.mp he with he | he
          · rcases List.mem_append.mp he with he | he
            · exact h4.2 e he
            · rw [← h4.1]; exact k5 e he
          · rw [List.mem_singleton] at he; subst he; trivial
        have hk : keptAfter (kept s) (D ++ D' ++ [.call .atomic a']) = r := by
          rw [keptAfter_append, keptAfter_append, ← h3, ← k2]; rfl
        cases r with
        | some sig =>
          refine ⟨fun a s' h => ?_, fun _ _ h => by cases h⟩
          cases h
          rw [hg]
          exact ⟨_, hlog, k4.trans h4.1, hh, Or.inr ⟨sig, hk, k3, rfl⟩⟩
        | none =>
          have h2' : Follows s s2 := ⟨_, hlog, by rw [hk, k3], k4.trans h4.1, hh⟩
          refine ⟨fun a s' h => ?_, fun e s' h => ?_⟩
          · exact .of_follows (h2'.trans ((hf s2).1 a s' h)) (hev s2 a s' h)
          · exact h2'.trans ((hf s2).2 e s' h)

/-! ## The calls -/

theorem readRawEvent_reads (t : WTerm) (n : Nat) (d : Option Duration) (s : WinSt) :
    (∀ a s', winReadRawEvent t n d s = .ok a s' → Reads s s' a.1) ∧
    (∀ e s', winReadRawEvent t n d s = .err e s' → Follows s s') := by
  refine reads_take (ev := Prod.fst) ?_ rfl (fun _ => rfl) ?_ s
  · refine Minds.bind (minds_conCall _) fun a => ?_
    minds_tac
  · intro s a s' h
    simp only [sm_bind] at h
    cases hc : conCall (.readInput t.inH (toDword n)) s with
    | stop w => rw [hc] at h; cases h
    | err e s1 => rw [hc] at h; cases h
    | ok x s1 =>
      rw [hc] at h
      cases x with
      | recs l =>
        dsimp only at h
        split at h <;> cases h
        rfl
      | fail => cases h
      | ok => cases h
      | timeout => cases h
      | handle _ => cases h
      | mode _ => cases h
      | info _ => cases h
      | wrote _ => cases h
      | chars _ => cases h

theorem readRaw_reads (t : WTerm) (n : Nat) (d : Option Duration) (s : WinSt) :
    (∀ a s', winReadRaw t n d s = .ok a s' → Reads s s' a.1) ∧
    (∀ e s', winReadRaw t n d s = .err e s' → Follows s s') := by
  refine reads_take (ev := Prod.fst) ?_ rfl (fun _ => rfl) ?_ s
  · refine Minds.bind (minds_conCall _) fun a => ?_
    minds_tac
  · intro s a s' h
    simp only [sm_bind] at h
    cases hc : conCall (.readConsole t.inH (toDword n)) s with
    | stop w => rw [hc] at h; cases h
    | err e s1 => rw [hc] at h; cases h
    | ok x s1 =>
      rw [hc] at h
      cases x with
      | chars l =>
        dsimp only at h
        split at h
        · split at h <;> cases h <;> rfl
        · cases h
      | fail => cases h
      | ok => cases h
      | timeout => cases h
      | handle _ => cases h
      | mode _ => cases h
      | info _ => cases h
      | wrote _ => cases h
      | recs _ => cases h

theorem recordEvent_no_signal {rd rd' : WReader} {e : InRec} {ev : Event}
    (h : recordEvent rd e = some (ev, rd')) : reportOf (some ev) = [] := by
  unfold recordEvent at h
  cases ev with
  | signal sig =>
    exfalso
    repeat' split at h
    all_goals first
      | cases h
      | simp_all
  | _ => rfl

theorem readEvent_reads (t : WTerm) (d : Option Duration) (s : WinSt) :
    (∀ a s', winReadEvent t d s = .ok a s' → Reads s s' a) ∧
    (∀ e s', winReadEvent t d s = .err e s' → Follows s s') := by
  unfold winReadEvent
  simp only [sm_bind]
  have hr := readRawEvent_reads t 1 d s
  cases hm : winReadRawEvent t 1 d s with
  | stop w => exact ⟨fun _ _ h => by (cases h), fun _ _ h => by (cases h)⟩
  | err e s1 =>
    refine ⟨fun _ _ h => by (cases h), fun _ _ h => ?_⟩
    cases h
    exact hr.2 _ _ hm
  | ok r s1 =>
    have h1 := hr.1 _ _ hm
    obtain ⟨ev, l⟩ := r
    dsimp only
    have other : (∀ a s', (pure ev : WM (Option Event)) s1 = .ok a s' → Reads s s' a) ∧
        (∀ e s', (pure ev : WM (Option Event)) s1 = .err e s' → Follows s s') :=
      ⟨fun a s' h => by cases h; exact h1, fun _ _ h => by cases h⟩
    cases ev with
    | none => exact other
    | some ev =>
      cases ev with
      | raw n =>
        cases l with
        | nil =>
          refine ⟨fun a s' h => ?_, fun _ _ h => by (cases h)⟩
          cases h
          obtain ⟨D, g1, g2, g3, g4 | ⟨sig, g4, g5, g6⟩⟩ := h1
          · exact ⟨D, g1, g2, g3, Or.inl ⟨g4.1, rfl⟩⟩
          · cases g6
        | cons e l =>
          dsimp only
          simp only [sm_bind, sm_get]
          cases hp : recordEvent s1.rd e with
          | none => exact ⟨fun _ _ h => by (cases h), fun _ _ h => by (cases h)⟩
          | some v =>
            obtain ⟨ev, rd⟩ := v
            refine ⟨fun a s' h => ?_, fun _ _ h => by (cases h)⟩
            cases h
            obtain ⟨D, g1, g2, g3, g4 | ⟨sig, g4, g5, g6⟩⟩ := h1
            · exact ⟨D, g1, g2, g3, Or.inl ⟨g4.1, recordEvent_no_signal hp⟩⟩
            · cases g6
      | _ => exact other

/-! ## Preparing -/

/-- The signal kept follows what happened. -/
def Tracks (s s' : WinSt) : Prop := ∃ D, s'.log = s.log ++ D ∧ kept s' = keptAfter (kept s) D

theorem Follows.tracks {s s' : WinSt} (h : Follows s s') : Tracks s s' := by
  obtain ⟨D, h1, h2, -⟩ := h
  exact ⟨D, h1, h2⟩

theorem Tracks.trans {a b c : WinSt} (h : Tracks a b) (h' : Tracks b c) : Tracks a c := by
  obtain ⟨D, h1, h2⟩ := h
  obtain ⟨D', g1, g2⟩ := h'
  exact ⟨D ++ D', by rw [g1, h1, List.append_assoc], by rw [g2, h2, keptAfter_append]⟩

/-- Before the handler is told which signals to catch. -/
def prepareStart (t : WTerm) (cfg : PrepareConfig) : WM (BitVec 32) := do
  let old ← consoleMode t.inH
  SM.when cfg.enableMouse <|
    SM.modify fun s => { s with rd := { s.rd with track := cfg.alwaysTrackMotion } }
  setConsoleMode t.inH (prepareMode cfg old)
  pure old

theorem minds_prepareStart (t : WTerm) (cfg : PrepareConfig) : Minds (prepareStart t cfg) := by
  unfold prepareStart setConsoleMode
  minds_tac

theorem sm_assoc {σ α β γ : Type} (m : SM σ α) (f : α → SM σ β) (g : β → SM σ γ) :
    (m >>= f) >>= g = m >>= fun a => f a >>= g := by
  funext s
  simp only [sm_bind]
  cases m s <;> rfl

theorem sm_pure_bind {σ α β : Type} (a : α) (f : α → SM σ β) : (pure a : SM σ α) >>= f = f a := rfl

theorem prepare_start (t : WTerm) (cfg : PrepareConfig) : winPrepare t cfg = prepareStart t cfg >>=
    fun old => if cfg.reportSignals.intersects (SignalSet.orSignals .break .interrupt) then do
        catchSignals cfg.reportSignals
        boolCall (.setCtrlHandler true)
        pure { oldIn := old, clearHandler := true }
      else
        pure { oldIn := old, clearHandler := false } := by
  unfold winPrepare prepareStart
  simp only [sm_assoc, sm_pure_bind]

theorem catchSignals_ok {set : SignalSet} {s s' : WinSt} (h : catchSignals set s = .ok () s') :
    Tracks s s' ∧ s'.catchSet = catchBits set := by
  unfold catchSignals at h
  simp only [sm_bind] at h
  cases hc : conCall .atomic s with
  | stop w => rw [hc] at h; cases h
  | err e s1 => rw [hc] at h; cases h
  | ok a s1 =>
    rw [hc] at h
    cases h
    obtain ⟨D, h1, h2, -⟩ := (minds_conCall _ s).1 a s1 hc
    exact ⟨⟨D, h1, h2⟩, rfl⟩

theorem catchSignals_not_err {set : SignalSet} {s s' : WinSt} {e : IoErr} :
    catchSignals set s ≠ .err e s' := by
  intro h
  unfold catchSignals at h
  simp only [sm_bind] at h
  cases hc : conCall .atomic s with
  | stop w => rw [hc] at h; cases h
  | err e s1 => exact conCall_not_err hc
  | ok a s1 => rw [hc] at h; cases h

/-- Preparing: the signal kept follows what happens, and the signals asked for are those to handle. -/
theorem prepare_notes (t : WTerm) (cfg : PrepareConfig) (s : WinSt) :
    (∀ a s', winPrepare t cfg s = .ok a s' → Tracks s s' ∧
      (cfg.reportSignals.intersects (SignalSet.orSignals .break .interrupt) = true →
        s'.catchSet = catchBits cfg.reportSignals)) ∧
    (∀ e s', winPrepare t cfg s = .err e s' → Tracks s s') := by
  rw [prepare_start]
  simp only [sm_bind]
  have hs := minds_prepareStart t cfg s
  cases hm : prepareStart t cfg s with
  | stop w => exact ⟨fun _ _ h => by (cases h), fun _ _ h => by (cases h)⟩
  | err e s1 =>
    refine ⟨fun _ _ h => by (cases h), fun _ _ h => ?_⟩
    cases h
    exact (hs.2 _ _ hm).tracks
  | ok old s1 =>
    have h1 := (hs.1 _ _ hm).tracks
    dsimp only
    by_cases hi : cfg.reportSignals.intersects (SignalSet.orSignals .break .interrupt) = true
    · simp only [hi, if_true, sm_bind]
      cases hc : catchSignals cfg.reportSignals s1 with
      | stop w => exact ⟨fun _ _ h => by (cases h), fun _ _ h => by (cases h)⟩
      | err e s2 => exact absurd hc catchSignals_not_err
      | ok v s2 =>
        obtain ⟨h2, h3⟩ := catchSignals_ok hc
        dsimp only
        have hb := minds_boolCall (.setCtrlHandler true) s2
        cases hd : boolCall (.setCtrlHandler true) s2 with
        | stop w => exact ⟨fun _ _ h => by (cases h), fun _ _ h => by (cases h)⟩
        | err e s3 =>
          refine ⟨fun _ _ h => by (cases h), fun _ _ h => ?_⟩
          cases h
          exact (h1.trans h2).trans (hb.2 _ _ hd).tracks
        | ok v s3 =>
          refine ⟨fun _ _ h => ?_, fun _ _ h => by (cases h)⟩
          cases h
          obtain ⟨D, g1, g2, g3, -⟩ := hb.1 _ _ hd
          exact ⟨(h1.trans h2).trans ⟨D, g1, g2⟩, fun _ => g3.trans h3⟩
    · simp only [hi]
      refine ⟨fun _ _ h => ?_, fun _ _ h => by (cases h)⟩
      cases h
      exact ⟨h1, fun h => absurd h (by simp)⟩

/-! ## Sessions -/

theorem minds_other (t : WTerm) (op : SigOp) (hp : ¬ op.IsPrepare) :
    (∀ s a s', op.run t s = .ok a s' → Reads s s' a) ∧
    (∀ s e s', op.run t s = .err e s' → Follows s s') := by
  have quiet : ∀ {α : Type} {m : WM α}, Minds m →
      (∀ s a s', (do let _ ← m; pure none : WM (Option Event)) s = .ok a s' → Reads s s' a) ∧
      (∀ s e s', (do let _ ← m; pure none : WM (Option Event)) s = .err e s' → Follows s s') := by
    intro α m hm
    have hb : Minds (do let _ ← m; pure none : WM (Option Event)) := Minds.bind hm fun _ => Minds.pure _
    refine ⟨fun s a s' h => .of_follows ((hb s).1 a s' h) ?_, fun s e s' h => (hb s).2 e s' h⟩
    simp only [sm_bind] at h
    cases e : m s <;> rw [e] at h <;> cases h
    rfl
  cases op with
  | prepare cfg => exact absurd trivial hp
  | wait d => exact quiet (minds_wait t d)
  | readEvent d => exact ⟨fun s => (readEvent_reads t d s).1, fun s => (readEvent_reads t d s).2⟩
  | readRaw n d =>
    constructor
    · intro s a s' h
      simp only [SigOp.run, sm_bind] at h
      cases e : winReadRaw t n d s <;> rw [e] at h <;> cases h
      exact (readRaw_reads t n d s).1 _ _ e
    · intro s a s' h
      simp only [SigOp.run, sm_bind] at h
      cases e : winReadRaw t n d s <;> rw [e] at h <;> cases h
      exact (readRaw_reads t n d s).2 _ _ e
  | readRawEvent n d =>
    constructor
    · intro s a s' h
      simp only [SigOp.run, sm_bind] at h
      cases e : winReadRawEvent t n d s <;> rw [e] at h <;> cases h
      exact (readRawEvent_reads t n d s).1 _ _ e
    · intro s a s' h
      simp only [SigOp.run, sm_bind] at h
      cases e : winReadRawEvent t n d s <;> rw [e] at h <;> cases h
      exact (readRawEvent_reads t n d s).2 _ _ e
  | restore st => exact quiet (by unfold winRestore setConsoleMode; minds_tac)
  | write text => exact quiet (Minds.bind minds_get fun _ => minds_writeLoop _ _ _)
  | attr op => exact quiet (minds_attr t op)
  | moveTo p => exact quiet (by unfold winMoveCursor moveAbs; minds_tac)
  | moveBy off => exact quiet (by unfold moveRel moveAbs; minds_tac)
  | clearScreen => exact quiet (by unfold winClearScreen clearArea moveAbs moveWindow; minds_tac)
  | clearLine => exact quiet (by unfold winClearToLineEnd clearArea; minds_tac)
  | clearRest => exact quiet (by unfold winClearToScreenEnd clearArea; minds_tac)
  | cursorMode m => exact quiet (by unfold winCursorMode; minds_tac)

theorem between_eq {s s' : WinSt} {D : List WEv} (h : s'.log = s.log ++ D) :
    between s s' = D.map .ev := by
  unfold between
  rw [h, List.drop_left]

theorem op_ok (t : WTerm) (op : SigOp) {s s' : WinSt} {a : Option Event} (h : op.run t s = .ok a s')
    (l : List Note) : account (kept s) (between s s' ++ reportOf a ++ l) = account (kept s') l := by
  by_cases hp : op.IsPrepare
  · cases op <;> simp only [SigOp.IsPrepare] at hp
    rename_i cfg
    simp only [SigOp.run, sm_bind] at h
    cases e : winPrepare t cfg s <;> rw [e] at h <;> cases h
    obtain ⟨⟨D, h1, h2⟩, -⟩ := (prepare_notes t cfg s).1 _ _ e
    rw [between_eq h1, List.append_assoc, account_ev, ← h2]
    rfl
  · obtain ⟨D, h1, h2, h3, ⟨h4, h5⟩ | ⟨sig, h4, h5, rfl⟩⟩ := (minds_other t op hp).1 s a s' h
    · rw [between_eq h1, h5, List.append_nil, account_ev, ← h4]
    · rw [between_eq h1, List.append_assoc, account_ev, h4, h5]
      show (if some sig = some sig then account none l else none) = _
      rw [if_pos rfl]

theorem op_err (t : WTerm) (op : SigOp) {s s' : WinSt} {e : IoErr} (h : op.run t s = .err e s')
    (l : List Note) : account (kept s) (between s s' ++ l) = account (kept s') l := by
  by_cases hp : op.IsPrepare
  · cases op <;> simp only [SigOp.IsPrepare] at hp
    rename_i cfg
    simp only [SigOp.run, sm_bind] at h
    cases e : winPrepare t cfg s <;> rw [e] at h <;> cases h
    obtain ⟨D, h1, h2⟩ := (prepare_notes t cfg s).2 _ _ e
    rw [between_eq h1, account_ev, ← h2]
  · obtain ⟨D, h1, h2, -⟩ := (minds_other t op hp).2 s e s' h
    rw [between_eq h1, account_ev, ← h2]

theorem session_account (t : WTerm) (ops : List SigOp) (s s' : WinSt) (n : List Note)
    (h : session t ops s = some (n, s')) : account (kept s) n = some (kept s') := by
  induction ops generalizing s n with
  | nil => cases h; rfl
  | cons op l ih =>
    unfold session at h
    cases e : op.run t s with
    | stop w => rw [e] at h; cases h
    | ok r s1 =>
      rw [e] at h
      dsimp only at h
      rw [Option.map_eq_some_iff] at h
      obtain ⟨⟨n1, s2⟩, h1, h2⟩ := h
      cases h2
      rw [op_ok t op e, ih _ _ h1]
    | err r s1 =>
      rw [e] at h
      dsimp only at h
      rw [Option.map_eq_some_iff] at h
      obtain ⟨⟨n1, s2⟩, h1, h2⟩ := h
      cases h2
      rw [op_err t op e, ih _ _ h1]

/-- As long as nothing is prepared, the same signals are handled. -/
theorem session_handled (t : WTerm) (ops : List SigOp) (hp : ∀ op ∈ ops, ¬ op.IsPrepare)
    (s s' : WinSt) (n : List Note) (h : session t ops s = some (n, s')) :
    ∀ x ∈ n, ∀ e, x = .ev e → HandledAs s.catchSet e := by
  induction ops generalizing s n with
  | nil => cases h; intro x hx; cases hx
  | cons op l ih =>
    have hop := minds_other t op (hp op (by simp))
    have hl := fun s n h => ih (fun o ho => hp o (List.mem_cons_of_mem _ ho)) s n h
    unfold session at h
    cases e : op.run t s with
    | stop w => rw [e] at h; cases h
    | ok r s1 =>
      rw [e] at h
      dsimp only at h
      rw [Option.map_eq_some_iff] at h
      obtain ⟨⟨n1, s2⟩, h1, h2⟩ := h
      cases h2
      obtain ⟨D, g1, g2, g3, -⟩ := hop.1 s r s1 e
      rw [between_eq g1]
      rintro x hx ev rfl
      rcases List.mem_append.mp hx with hx | hx
      · rcases List.mem_append.mp hx with hx | hx
        · obtain ⟨d, hd, hd'⟩ := List.mem_map.mp hx
          cases hd'
          exact g3 _ hd
        · unfold reportOf at hx
          split at hx <;> simp at hx
      · rw [← g2]; exact hl s1 n1 h1 _ hx ev rfl
    | err r s1 =>
      rw [e] at h
      dsimp only at h
      rw [Option.map_eq_some_iff] at h
      obtain ⟨⟨n1, s2⟩, h1, h2⟩ := h
      cases h2
      obtain ⟨D, g1, -, g2, g3⟩ := hop.2 s r s1 e
      rw [between_eq g1]
      rintro x hx ev rfl
      rcases List.mem_append.mp hx with hx | hx
      · obtain ⟨d, hd, hd'⟩ := List.mem_map.mp hx
        cases hd'
        exact g3 _ hd
      · rw [← g2]; exact hl s1 n1 h1 _ hx ev rfl

theorem handledAs_set (set : SignalSet) (e : WEv) (h : HandledAs (catchBits set) e) :
    Note.HandledBy set (.ev e) := by
  cases e with
  | input r => trivial
  | call c a => trivial
  | ctrl t hd w =>
    unfold HandledAs at h
    unfold Note.HandledBy
    dsimp only at h ⊢
    rw [h]
    by_cases h1 : t = CTRL_BREAK
    · subst h1
      unfold catchBits sigOfType CTRL_BREAK CTRL_C
      cases e1 : set.contains .break <;> cases e2 : set.contains .interrupt <;> simp [e1, e2]
    · by_cases h2 : t = CTRL_C
      · subst h2
        unfold catchBits sigOfType CTRL_BREAK CTRL_C
        cases e1 : set.contains .break <;> cases e2 : set.contains .interrupt <;> simp [e1, e2]
      · have : sigOfType t = none := by
          unfold sigOfType
          unfold CTRL_C at h2
          unfold CTRL_BREAK at h1
          rw [if_neg h2, if_neg h1]
        simp [h1, h2, this]

/-! ## A signal kept when a call starts -/

theorem keptAfter_some {b : BitVec 64} {D : List WEv} (h : ∀ e ∈ D, HandledAs b e) (sig : Signal) :
    ∃ sig', keptAfter (some sig) D = some sig' := by
  induction D generalizing sig with
  | nil => exact ⟨sig, rfl⟩
  | cons e D ih =>
    have hl := fun e' he' => h e' (List.mem_cons_of_mem _ he')
    cases e with
    | input r => exact ih hl sig
    | call c a => exact ih hl sig
    | ctrl t hd w =>
      cases hd with
      | false => exact ih hl sig
      | true =>
        have := (h (.ctrl t true w) (by simp)).1 rfl
        rcases this.1 with rfl | rfl
        · exact ih hl .break
        · exact ih hl .interrupt

theorem IsHap.noWait {e : WEv} (h : IsHap e) : NoWait e := by
  cases e with
  | call c a => exact h.elim
  | input r => trivial
  | ctrl t a w => trivial

/-- An access to the variables of the handler. -/
theorem atomic_some (s : WinSt) {sig : Signal} (hk : kept s = some sig) {a : Ans} {s' : WinSt}
    (h : conCall .atomic s = .ok a s') :
    ∃ D sig', s'.log = s.log ++ D ∧ (∀ e ∈ D, NoWait e) ∧ kept s' = some sig' ∧
      keptAfter (some sig) D = some sig' ∧ s'.os.length + 1 = s.os.length := by
  obtain ⟨evs, h1, h2, -, h3⟩ := conCall_ok h
  obtain ⟨D, g1, g2, g3, g4⟩ := (minds_conCall _ s).1 a s' h
  have e : D = evs ++ [.call .atomic a] := by
    rw [h2, List.append_assoc] at g1
    exact (List.append_cancel_left g1).symm
  obtain ⟨sig', h4⟩ := keptAfter_some g4 sig
  rw [hk, h4] at g2
  refine ⟨D, sig', g1, ?_, g2, h4, h3⟩
  intro x hx
  rw [e] at hx
  rcases List.mem_append.mp hx with hx | hx
  · exact (h1 x hx).noWait
  · rw [List.mem_singleton] at hx; subst hx; trivial

theorem conCall_runs {s : WinSt} (c : ConCall) (h : 0 < s.os.length) : ∃ a s', conCall c s = .ok a s' := by
  unfold conCall
  cases ho : s.os with
  | nil => rw [ho] at h; simp at h
  | cons st os => exact ⟨_, _, rfl⟩

theorem conCall_cases (c : ConCall) (s : WinSt) :
    (∃ a s', conCall c s = .ok a s') ∨ (s.os.length = 0 ∧ conCall c s = .stop .blocked) := by
  unfold conCall
  cases ho : s.os with
  | nil => exact Or.inr ⟨rfl, rfl⟩
  | cons st os => exact Or.inl ⟨_, _, rfl⟩

/-- What a call does that finds a signal: no wait, and `r` of the newest signal. -/
structure FindsSig {α : Type} (s : WinSt) (sig : Signal) (n : Nat) (m : WM α) (P : α → Signal → WinSt → Prop) :
    Prop where
  no_err : ∀ e s', m s ≠ .err e s'
  ok : ∀ a s', m s = .ok a s' → ∃ D sig', s'.log = s.log ++ D ∧ (∀ e ∈ D, NoWait e) ∧
    keptAfter (some sig) D = some sig' ∧ P a sig' s'
  runs : n ≤ s.os.length → ∃ a s', m s = .ok a s'

theorem wait_finds (t : WTerm) (d : Option Duration) {s : WinSt} {sig : Signal} (hk : kept s = some sig) :
    FindsSig s sig 1 (winWait t d) (fun a sig' s' => a = true ∧ kept s' = some sig' ∧
      s'.os.length + 1 = s.os.length) := by
  rcases conCall_cases .atomic s with ⟨a, s1, h⟩ | ⟨h0, h⟩
  · obtain ⟨D, sig', h1, h2, h3, h4, h5⟩ := atomic_some s hk h
    have e : winWait t d s = .ok true s1 := by
      unfold winWait getCtrl
      simp only [sm_bind, h, sm_get, sm_pure]
      unfold kept at h3
      rw [h3]
      rfl
    refine ⟨fun e' s' g => ?_, fun a s' g => ?_, fun _ => ⟨_, _, e⟩⟩
    · rw [e] at g; cases g
    · rw [e] at g; cases g
      exact ⟨D, sig', h1, h2, h4, rfl, h3, h5⟩
  · have e : winWait t d s = .stop .blocked := by
      unfold winWait getCtrl
      simp only [sm_bind, h]
    refine ⟨fun e' s' g => ?_, fun a s' g => ?_, fun g => ?_⟩
    · rw [e] at g; cases g
    · rw [e] at g; cases g
    · omega

theorem take_finds {α : Type} {t : WTerm} {d : Option Duration} {y : α} {g : Signal → α} {f : WM α}
    {s : WinSt} {sig : Signal} (hk : kept s = some sig) :
    FindsSig s sig 2 (do
      if !(← winWait t d) then pure y
      else
        match ← takeCtrl with
        | some sig => pure (g sig)
        | none => f : WM α) (fun a sig' s' => a = g sig' ∧ kept s' = none) := by
  have hw := wait_finds t d hk
  cases hm : winWait t d s with
  | stop w =>
    refine ⟨fun e' s' h => ?_, fun a s' h => ?_, fun h => ?_⟩
    · simp only [sm_bind, hm] at h; cases h
    · simp only [sm_bind, hm] at h; cases h
    · obtain ⟨a, s', h'⟩ := hw.runs (by omega)
      rw [hm] at h'; cases h'
  | err e s1 => exact absurd hm (hw.no_err _ _)
  | ok b s1 =>
    obtain ⟨D, sig1, h1, h2, h3, rfl, h4, h5⟩ := hw.ok _ _ hm
    rcases conCall_cases .atomic s1 with ⟨a, s2, h⟩ | ⟨h0, h⟩
    · obtain ⟨D', sig', g1, g2, g3, g4, g5⟩ := atomic_some s1 h4 h
      have e : (do
          if !(← winWait t d) then pure y
          else
            match ← takeCtrl with
            | some sig => pure (g sig)
            | none => f : WM α) s = .ok (g sig') { s2 with last := noSignal } := by
        simp only [sm_bind, hm]
        unfold takeCtrl
        simp only [Bool.not_true, Bool.false_eq_true, if_false, sm_bind, h, sm_get, sm_modify, sm_pure]
        unfold kept at g3
        rw [g3]
        rfl
      refine ⟨fun e' s' x => ?_, fun a s' x => ?_, fun _ => ⟨_, _, e⟩⟩
      · rw [e] at x; cases x
      · rw [e] at x; cases x
        refine ⟨D ++ D', sig', ?_, ?_, ?_, rfl, (by decide : convCtrl (noSignal.truncate 32) = none)⟩
        · show s2.log = _
          rw [g1, h1, List.append_assoc]
        · intro x hx
          rcases List.mem_append.mp hx with hx | hx
          · exact h2 x hx
          · exact g2 x hx
        · rw [keptAfter_append, h3, g4]
    · have e : (do
          if !(← winWait t d) then pure y
          else
            match ← takeCtrl with
            | some sig => pure (g sig)
            | none => f : WM α) s = .stop .blocked := by
        simp only [sm_bind, hm]
        unfold takeCtrl
        simp only [Bool.not_true, Bool.false_eq_true, if_false, sm_bind, h]
      refine ⟨fun e' s' g => ?_, fun a s' g => ?_, fun g => ?_⟩
      · rw [e] at g; cases g
      · rw [e] at g; cases g
      · omega

theorem FindsSig.map {α β : Type} {s : WinSt} {sig : Signal} {n : Nat} {m : WM α} {m' : WM β}
    {P : α → Signal → WinSt → Prop} {P' : β → Signal → WinSt → Prop} (h : FindsSig s sig n m P) (f : α → β)
    (hP : ∀ a sig s', P a sig s' → P' (f a) sig s')
    (h1 : ∀ a sig s', P a sig s' → m s = .ok a s' → m' s = .ok (f a) s')
    (h2 : ∀ w, m s = .stop w → m' s = .stop w) : FindsSig s sig n m' P' := by
  cases hm : m s with
  | err e s1 => exact absurd hm (h.no_err _ _)
  | stop w =>
    have e := h2 w hm
    refine ⟨fun e' s' g => ?_, fun a s' g => ?_, fun g => ?_⟩
    · rw [e] at g; cases g
    · rw [e] at g; cases g
    · obtain ⟨a, s', h'⟩ := h.runs g
      rw [hm] at h'; cases h'
  | ok a s1 =>
    obtain ⟨D, sig', g1, g2, g3, g4⟩ := h.ok _ _ hm
    have e := h1 a sig' s1 g4 hm
    refine ⟨fun e' s' g => ?_, fun a s' g => ?_, fun g => ⟨_, _, e⟩⟩
    · rw [e] at g; cases g
    · rw [e] at g; cases g
      exact ⟨D, sig', g1, g2, g3, hP _ _ _ g4⟩

theorem readRawEvent_finds (t : WTerm) (n : Nat) (d : Option Duration) {s : WinSt} {sig : Signal}
    (hk : kept s = some sig) : FindsSig s sig 2 (winReadRawEvent t n d)
      (fun a sig' s' => a = (some (.signal sig'), []) ∧ kept s' = none) := take_finds hk

theorem readRaw_finds (t : WTerm) (n : Nat) (d : Option Duration) {s : WinSt} {sig : Signal}
    (hk : kept s = some sig) : FindsSig s sig 2 (winReadRaw t n d)
      (fun a sig' s' => a = (some (.signal sig'), []) ∧ kept s' = none) := take_finds hk

theorem readEvent_finds (t : WTerm) (d : Option Duration) {s : WinSt} {sig : Signal}
    (hk : kept s = some sig) : FindsSig s sig 2 (winReadEvent t d)
      (fun a sig' s' => a = some (.signal sig') ∧ kept s' = none) := by
  refine (readRawEvent_finds t 1 d hk).map Prod.fst ?_ ?_ ?_
  · rintro a sig s' ⟨rfl, h⟩; exact ⟨rfl, h⟩
  · rintro a sig s' ⟨rfl, h⟩ e
    unfold winReadEvent
    simp only [sm_bind, e]
    rfl
  · intro w e
    unfold winReadEvent
    simp only [sm_bind, e]

theorem account_append (p : Option Signal) (a b : List Note) : account p (a ++ b) =
    (account p a).bind fun q => account q b := by
  induction a generalizing p with
  | nil => rfl
  | cons x a ih =>
    cases x with
    | report r =>
      simp only [List.cons_append, account]
      split
      · exact ih _
      · rfl
    | ev e =>
      cases e with
      | ctrl t h w => cases h <;> exact ih _
      | input r => exact ih _
      | call c a => exact ih _

/-- A call that reads while a signal is kept. -/
theorem reads_now (t : WTerm) (op : SigOp) {s' : WinSt} {sig : Signal} {n : List Note}
    (hkept : kept s' = some sig) (ho : op.IsRead) (hk : account none n = some (some sig)) :
    (∀ e s'', op.run t s' ≠ .err e s'') ∧
    (2 ≤ s'.os.length → ∃ a s'', op.run t s' = .ok a s'') ∧
    ∀ a s'', op.run t s' = .ok a s'' →
      (∀ e, .ev e ∈ between s' s'' → NoWait e) ∧
      ∃ sig', account (some sig) (between s' s'') = some (some sig') ∧ a = some (.signal sig') ∧
        account none (n ++ between s' s'' ++ reportOf a) = some none := by
  have hf : FindsSig s' sig 2 (op.run t) (fun a sig' s'' => a = some (.signal sig') ∧ kept s'' = none) := by
    cases op <;> simp only [SigOp.IsRead] at ho
    · exact readEvent_finds t _ hkept
    · rename_i len d
      refine (readRaw_finds t len d hkept).map Prod.fst ?_ ?_ ?_
      · rintro a sig s' ⟨rfl, h⟩; exact ⟨rfl, h⟩
      · rintro a sig s' - e
        simp only [SigOp.run, sm_bind, e]; rfl
      · intro w e
        simp only [SigOp.run, sm_bind, e]
    · rename_i len d
      refine (readRawEvent_finds t len d hkept).map Prod.fst ?_ ?_ ?_
      · rintro a sig s' ⟨rfl, h⟩; exact ⟨rfl, h⟩
      · rintro a sig s' - e
        simp only [SigOp.run, sm_bind, e]; rfl
      · intro w e
        simp only [SigOp.run, sm_bind, e]
  refine ⟨hf.no_err, hf.runs, fun a s'' e => ?_⟩
  obtain ⟨D, sig', h1, h2, h3, rfl, h4⟩ := hf.ok _ _ e
  have hb := between_eq h1
  have h5 : account (some sig) (between s' s'') = some (some sig') := by
    have := account_ev (some sig) D []
    rw [List.append_nil, h3] at this
    rw [hb, this]; rfl
  refine ⟨fun e he => ?_, sig', h5, rfl, ?_⟩
  · rw [hb] at he
    obtain ⟨d, hd, hd'⟩ := List.mem_map.mp he
    cases hd'
    exact h2 _ hd
  · rw [account_append, account_append, hk, Option.bind_some, h5, Option.bind_some]
    show (if some sig' = some sig' then _ else _) = _
    rw [if_pos rfl]; rfl

/-! ## Waits that time out -/

theorem haps_fill (u : UEnv) (k : Nat) {l : List WEv} (h : ∀ e ∈ l, IsHap e) {c c' : Con}
    (hp : c.play u k l = some c') (hq : c'.queue = []) : c.queue = [] ∧ ∀ e ∈ l, ¬ Fills e := by
  induction l generalizing c with
  | nil => cases hp; exact ⟨hq, by simp⟩
  | cons e l ih =>
    have he := h e (by simp)
    have hl := fun e' he' => h e' (List.mem_cons_of_mem _ he')
    simp only [Con.play] at hp
    cases e with
    | call _ _ => exact he.elim
    | input r =>
      have := (ih hl hp).1
      simp at this
    | ctrl t a w =>
      cases w
      · obtain ⟨g1, g2⟩ := ih hl hp
        refine ⟨g1, fun e he => ?_⟩
        rcases List.mem_cons.mp he with rfl | he
        · exact Bool.false_ne_true
        · exact g2 e he
      · have := (ih hl hp).1
        simp at this

/-- A wait that timed out: nothing was kept when it started, and nothing came in. -/
theorem wait_timeout (u : UEnv) (t : WTerm) (d : Option Duration) {s s' : WinSt} {c : Con} {D : List WEv}
    (h : winWait t d s = .ok false s') (hl : s'.log = s.log ++ D) (hr : c.Runs u t.inH D) :
    kept s = none ∧ c.queue = [] ∧ ∀ e ∈ D, ¬ Fills e := by
  have h0 : kept s = none := by
    cases hk : kept s with
    | none => rfl
    | some sig =>
      obtain ⟨_, _, _, _, _, g, _⟩ := (wait_finds t d hk).ok _ _ h
      cases g
  refine ⟨h0, ?_⟩
  unfold winWait getCtrl at h
  simp only [sm_bind, sm_get, sm_pure] at h
  rcases conCall_cases .atomic s with ⟨a, s1, h1⟩ | ⟨-, h1⟩
  · rw [h1] at h
    dsimp only at h
    cases hk : convCtrl (s1.last.truncate 32) with
    | some sig => rw [hk] at h; cases h
    | none =>
      rw [hk] at h
      dsimp only at h
      simp only [sm_bind] at h
      cases hd : asMillis d with
      | none => rw [hd] at h; cases h
      | some ms =>
        rw [hd, sm_ofPanics_some] at h
        dsimp only at h
        rcases conCall_cases (.wait t.inH ms) s1 with ⟨b, s2, h2⟩ | ⟨-, h2⟩
        · rw [h2] at h
          dsimp only at h
          cases b <;> try (cases h; done)
          cases h
          obtain ⟨e1, g1, g2, -⟩ := conCall_ok h1
          obtain ⟨e2, k1, k2, -⟩ := conCall_ok h2
          have e : D = e1 ++ ([.call .atomic a] ++ (e2 ++ [.call (.wait t.inH ms) .timeout])) := by
            rw [k2, g2] at hl
            simp only [List.append_assoc] at hl
            exact (List.append_cancel_left hl).symm
          rw [e] at hr
          obtain ⟨q1, p1⟩ := haps_play u t.inH g1 c
          have r1 := (con_runs_append hr).2 _ p1
          have r2 := (con_runs_append r1).2 { c with queue := q1 } (by rw [con_play_one]; cases a <;> rfl)
          obtain ⟨q2, p2⟩ := haps_play u t.inH k1 { c with queue := q1 }
          have r3 := ((con_runs_append r2).2 _ p2).1
          have hq : q2 = [] := by
            rcases r3 with r3 | r3 | r3
            · cases r3
            · cases r3.1
            · exact r3.2.2.1
          obtain ⟨f1, f2⟩ := haps_fill u t.inH k1 p2 hq
          obtain ⟨f3, f4⟩ := haps_fill u t.inH g1 p1 f1
          refine ⟨f3, fun x hx => ?_⟩
          rw [e] at hx
          simp only [List.mem_append, List.mem_singleton] at hx
          rcases hx with hx | rfl | hx | rfl
          · exact f4 x hx
          · exact id
          · exact f2 x hx
          · exact id
        · rw [h2] at h; cases h
  · rw [h1] at h; cases h

end Mortal
