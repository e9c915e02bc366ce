import Verif.Lemmas.WinSignal
import Verif.Lemmas.WinPure
import Verif.Spec.WinUser

/-! # What becomes of the records in the console's queue -/

namespace Mortal
open Spec

/-- The records read. -/
def takenRecs : List WEv → List InRec
  | [] => []
  | .call (.readInput _ _) (.recs l) :: d => l ++ takenRecs d
  | _ :: d => takenRecs d

theorem takenRecs_append (a b : List WEv) : takenRecs (a ++ b) = takenRecs a ++ takenRecs b := by
  induction a with
  | nil => rfl
  | cons e a ih =>
    rw [List.cons_append, takenRecs.eq_def, takenRecs.eq_def]
    split
    · rename_i h; cases h
    · rename_i h; cases h
      dsimp only
      rw [ih, List.append_assoc]
    · rename_i hn h
      cases h
      split
      · rename_i h; cases h
      · rename_i h; cases h
        exact (hn _ _ _ rfl).elim
      · rename_i h; cases h
        exact ih

/-- The queue is what was there and arrived, without what was read. -/
theorem queue_account {u : UEnv} {k : Nat} (D : List WEv) : ∀ (c c' : Con), c.Runs u k D →
    c.play u k D = some c' → takenRecs D ++ c'.queue = c.queue ++ arriving D := by
  induction D with
  | nil => intro c c' _ hp; cases hp; simp [takenRecs, arriving]
  | cons e D ih =>
    intro c c' hr hp
    obtain ⟨h1, h2⟩ := hr
    unfold Con.play at hp
    rw [Option.bind_eq_some_iff] at hp
    obtain ⟨c1, hc1, hp⟩ := hp
    have := ih c1 c' (h2 c1 hc1) hp
    have onOut : ∀ {c c1 : Con} {h : Nat} {f}, c.onOut h f = some c1 → c1.queue = c.queue := by
      intro c c1 h f hf
      unfold Con.onOut at hf
      rw [Option.bind_eq_some_iff] at hf
      obtain ⟨o, -, hf⟩ := hf
      rw [Option.map_eq_some_iff] at hf
      obtain ⟨o', -, rfl⟩ := hf
      rfl
    cases e with
    | input r =>
      cases hc1
      simp only [takenRecs, arriving]
      rw [this]
      simp
    | ctrl t h w =>
      cases hc1
      cases w
      · exact this
      · simp only [takenRecs, arriving]
        rw [this]
        simp
    | call call a =>
      by_cases ht : ∃ h n l, call = .readInput h n ∧ a = .recs l
      · obtain ⟨h, n, l, rfl, rfl⟩ := ht
        simp only [takenRecs, arriving]
        rcases h1 with h1 | ⟨l', e, -, hl, -⟩
        · cases h1
        · cases e
          cases hc1
          obtain ⟨q, hq⟩ := hl
          dsimp only at this
          rw [List.append_assoc, this, ← hq, List.drop_left, List.append_assoc]
      · have hq : c1.queue = c.queue := by
          by_cases hf : a = .fail
          · subst hf; cases hc1; rfl
          · unfold Con.step at hc1
            split at hc1
            · rename_i h; cases h
            · rename_i h; cases h
            · cases hc1; rfl
            · rename_i h
              cases h
              repeat' split at hc1
              all_goals first
                | (exfalso; exact hf rfl)
                | (cases hc1; done)
                | (cases hc1; rfl)
                | exact onOut hc1
                | (rw [Option.map_eq_some_iff] at hc1; obtain ⟨_, _, rfl⟩ := hc1; rfl)
                | (exfalso; exact ht ⟨_, _, _, rfl, rfl⟩)
        have ha : takenRecs (WEv.call call a :: D) = takenRecs D := by
          rw [takenRecs.eq_def]
          split
          · rename_i h; cases h
          · rename_i h; cases h; exact absurd ⟨_, _, _, rfl, rfl⟩ ht
          · rename_i h; cases h; rfl
        rw [ha, ← hq]
        exact this

/-! ## Code that reads nothing -/

/-- From one state to another some records were read. -/
def TookTo (s s' : WinSt) (l : List InRec) : Prop := ∃ D, s'.log = s.log ++ D ∧ takenRecs D = l

theorem TookTo.trans {a b c : WinSt} {l l' : List InRec} (h : TookTo a b l) (h' : TookTo b c l') :
    TookTo a c (l ++ l') := by
  obtain ⟨D, h1, h2⟩ := h
  obtain ⟨D', g1, g2⟩ := h'
  exact ⟨D ++ D', by rw [g1, h1, List.append_assoc], by rw [takenRecs_append, h2, g2]⟩

/-- Nothing is read, and the reader stays as it is. -/
def ReadsNone (s s' : WinSt) : Prop := TookTo s s' [] ∧ s'.rd = s.rd

theorem ReadsNone.refl (s : WinSt) : ReadsNone s s := ⟨⟨[], by simp, rfl⟩, rfl⟩

theorem ReadsNone.trans {a b c : WinSt} (h : ReadsNone a b) (h' : ReadsNone b c) : ReadsNone a c :=
  ⟨h.1.trans h'.1, h'.2.trans h.2⟩

/-- Code of that kind. -/
def Inert {α : Type} (m : WM α) : Prop :=
  ∀ s, (∀ a s', m s = .ok a s' → ReadsNone s s') ∧ (∀ e s', m s = .err e s' → ReadsNone s s')

theorem Inert.pure {α : Type} (a : α) : Inert (pure a : WM α) :=
  fun s => ⟨fun _ _ h => by cases h; exact .refl s, fun _ _ h => by cases h⟩

theorem Inert.bind {α β : Type} {m : WM α} {f : α → WM β} (h : Inert m) (hf : ∀ a, Inert (f a)) :
    Inert (m >>= f) := by
  intro s
  simp only [sm_bind]
  constructor
  · intro b s' e
    cases hm : m s with
    | ok a s1 => rw [hm] at e; exact ((h s).1 a s1 hm).trans ((hf a s1).1 b s' e)
    | err e' s1 => rw [hm] at e; cases e
    | stop w => rw [hm] at e; cases e
  · intro b s' e
    cases hm : m s with
    | ok a s1 => rw [hm] at e; exact ((h s).1 a s1 hm).trans ((hf a s1).2 b s' e)
    | err e' s1 => rw [hm] at e; cases e; exact (h s).2 _ _ hm
    | stop w => rw [hm] at e; cases e

theorem inert_get : Inert (SM.get : WM WinSt) :=
  fun s => ⟨fun _ _ h => by cases h; exact .refl s, fun _ _ h => by cases h⟩

theorem inert_throw {α : Type} (e : IoErr) : Inert (SM.throw e : WM α) :=
  fun s => ⟨fun _ _ h => by (cases h), fun _ _ h => by cases h; exact .refl s⟩

theorem inert_halt {α : Type} (w : Stop) : Inert (SM.halt w : WM α) :=
  fun s => ⟨fun _ _ h => by (cases h), fun _ _ h => by (cases h)⟩

theorem inert_ofPanics {α : Type} (x : Panics α) : Inert (SM.ofPanics x : WM α) := by
  cases x with
  | none => exact inert_halt _
  | some a => exact Inert.pure a

theorem inert_modify {f : WinSt → WinSt} (h1 : ∀ s, (f s).log = s.log) (h2 : ∀ s, (f s).rd = s.rd) :
    Inert (SM.modify f) := by
  refine fun s => ⟨fun _ _ h => ?_, fun _ _ h => by cases h⟩
  cases h
  exact ⟨⟨[], by simp [h1], rfl⟩, h2 s⟩

theorem readsNone_haps (l : List WHap) (s : WinSt) : ReadsNone s (l.foldl WHap.run s) := by
  induction l generalizing s with
  | nil => exact .refl s
  | cons e l ih =>
    refine ReadsNone.trans ?_ (ih _)
    cases e with
    | input r => exact ⟨⟨_, rfl, rfl⟩, rfl⟩
    | ctrl t w =>
      simp only [WHap.run, ctrlHandler]
      split
      · split <;> exact ⟨⟨_, rfl, rfl⟩, rfl⟩
      · exact ⟨⟨_, rfl, rfl⟩, rfl⟩

/-- A call: what was read is what it answered. -/
theorem conCall_took {c : ConCall} {s s' : WinSt} {a : Ans} (h : conCall c s = .ok a s') :
    TookTo s s' (takenRecs [.call c a]) ∧ s'.rd = s.rd := by
  unfold conCall at h
  cases ho : s.os with
  | nil => rw [ho] at h; cases h
  | cons st os =>
    rw [ho] at h
    dsimp only at h
    cases h
    have h0 : ReadsNone s { s with os := os } := ⟨⟨[], by simp, rfl⟩, rfl⟩
    have h1 := h0.trans (readsNone_haps st.haps { s with os := os })
    exact ⟨h1.1.trans ⟨[.call c st.ans], rfl, rfl⟩, h1.2⟩

theorem conCall_logged {c : ConCall} {s s' : WinSt} {a : Ans} (h : conCall c s = .ok a s') :
    ∃ D, s'.log = s.log ++ D ∧ WEv.call c a ∈ D := by
  unfold conCall at h
  cases ho : s.os with
  | nil => rw [ho] at h; cases h
  | cons st os =>
    rw [ho] at h
    dsimp only at h
    cases h
    have h0 : ReadsNone s { s with os := os } := ⟨⟨[], by simp, rfl⟩, rfl⟩
    obtain ⟨D, hD, -⟩ := (h0.trans (readsNone_haps st.haps { s with os := os })).1
    refine ⟨D ++ [.call c st.ans], ?_, by simp⟩
    show _ ++ _ = _
    rw [hD, List.append_assoc]

/-- Is the call one that reads records? -/
def isReadInput : ConCall → Bool
  | .readInput _ _ => true
  | _ => false

theorem inert_conCall {c : ConCall} (hc : isReadInput c = false) : Inert (conCall c) := by
  refine fun s => ⟨fun a s' h => ?_, fun e s' h => absurd h conCall_not_err⟩
  obtain ⟨h1, h2⟩ := conCall_took h
  have : takenRecs [.call c a] = [] := by
    cases c <;> first | rfl | cases hc
  rw [this] at h1
  exact ⟨h1, h2⟩

theorem inert_boolCall {c : ConCall} (hc : isReadInput c = false) : Inert (boolCall c) :=
  Inert.bind (inert_conCall hc) fun a => by
    cases a <;> first | exact Inert.pure _ | exact inert_throw _ | exact inert_halt _

theorem inert_info (h : Nat) : Inert (consoleInfo h) :=
  Inert.bind (inert_conCall rfl) fun a => by
    cases a <;> first | exact Inert.pure _ | exact inert_throw _ | exact inert_halt _

theorem inert_mode (h : Nat) : Inert (consoleMode h) :=
  Inert.bind (inert_conCall rfl) fun a => by
    cases a <;> first | exact Inert.pure _ | exact inert_throw _ | exact inert_halt _

theorem inert_when {p : Prop} [Decidable p] {m : WM Unit} (h : Inert m) : Inert (SM.when p m) := by
  unfold SM.when
  split
  · exact h
  · exact Inert.pure _

/-- Code made of such calls. -/
macro "inert_tac" : tactic =>
  `(tactic| repeat' (first
    | exact Inert.pure _ | exact inert_get | exact inert_ofPanics _ | exact inert_boolCall rfl
    | exact inert_throw _ | exact inert_halt _ | exact inert_info _ | exact inert_mode _
    | exact inert_conCall rfl | exact inert_modify (fun _ => rfl) (fun _ => rfl)
    | refine Inert.bind ?_ fun _ => ?_ | refine inert_when ?_ | split))

theorem inert_wait (t : WTerm) (d : Option Duration) : Inert (winWait t d) := by
  unfold winWait getCtrl
  inert_tac

theorem inert_take : Inert takeCtrl := by
  unfold takeCtrl
  inert_tac

theorem inert_writeLoop (h : Nat) (f : Nat) (buf : List (BitVec 16)) : Inert (writeLoop h f buf) := by
  induction f generalizing buf with
  | zero => unfold writeLoop; inert_tac
  | succ f ih =>
    unfold writeLoop
    split
    · refine Inert.bind (inert_conCall rfl) fun a => ?_
      cases a <;> first | exact ih _ | exact inert_throw _ | exact inert_halt _
    · exact Inert.pure _

theorem inert_attr (t : WTerm) (op : AttrOp) : Inert (op.run t) := by
  cases op <;> simp only [AttrOp.run] <;>
    simp only [winSetFg, winSetBg, winSetStyle, winAddStyle, winRemoveStyle, winSetAttributes,
      winClearAttributes, updateAttrs] <;> inert_tac

theorem inert_readRaw (t : WTerm) (n : Nat) (d : Option Duration) : Inert (winReadRaw t n d) := by
  unfold winReadRaw
  refine Inert.bind (inert_wait t d) fun b => ?_
  split
  · exact Inert.pure _
  · refine Inert.bind inert_take fun r => ?_
    split
    · exact Inert.pure _
    · inert_tac

/-! ## Reading events -/

/-- `read_raw_event`: the records stored are those read. -/
theorem readRawEvent_took (t : WTerm) (n : Nat) (d : Option Duration) (s : WinSt) :
    (∀ a s', winReadRawEvent t n d s = .ok a s' → TookTo s s' a.2 ∧ s'.rd = s.rd ∧ a.2.length ≤ n ∧
      ((a.1 = some (.raw a.2.length) ∧
        ∃ D, s'.log = s.log ++ D ∧ WEv.call (.readInput t.inH (toDword n)) (.recs a.2) ∈ D) ∨
      (a.2 = [] ∧ ((a.1 = none ∧ winWait t d s = .ok false s') ∨ ∃ sig, a.1 = some (.signal sig))))) ∧
    (∀ e s', winReadRawEvent t n d s = .err e s' → ReadsNone s s') := by
  unfold winReadRawEvent
  simp only [sm_bind]
  have hw := inert_wait t d s
  cases hm : winWait t d s with
  | stop w => exact ⟨fun _ _ h => by (cases h), fun _ _ h => by (cases h)⟩
  | err e s1 =>
    refine ⟨fun _ _ h => by (cases h), fun _ _ h => ?_⟩
    cases h
    exact hw.2 _ _ hm
  | ok b s1 =>
    have h1 := hw.1 _ _ hm
    cases b with
    | false =>
      refine ⟨fun a s' h => ?_, fun _ _ h => by (cases h)⟩
      cases h
      exact ⟨h1.1, h1.2, Nat.zero_le _, Or.inr ⟨rfl, Or.inl ⟨rfl, rfl⟩⟩⟩
    | true =>
      simp only [Bool.not_true, Bool.false_eq_true, if_false, sm_bind]
      have ht := inert_take s1
      cases hk : takeCtrl s1 with
      | stop w => exact ⟨fun _ _ h => by (cases h), fun _ _ h => by (cases h)⟩
      | err e s2 => exact absurd hk takeCtrl_not_err
      | ok r s2 =>
        have h2 := h1.trans (ht.1 _ _ hk)
        cases r with
        | some sig =>
          refine ⟨fun a s' h => ?_, fun _ _ h => by (cases h)⟩
          cases h
          exact ⟨h2.1, h2.2, Nat.zero_le _, Or.inr ⟨rfl, Or.inr ⟨sig, rfl⟩⟩⟩
        | none =>
          dsimp only
          simp only [sm_bind]
          cases hc : conCall (.readInput t.inH (toDword n)) s2 with
          | stop w => exact ⟨fun _ _ h => by (cases h), fun _ _ h => by (cases h)⟩
          | err e s3 => exact absurd hc conCall_not_err
          | ok x s3 =>
            obtain ⟨g1, g2⟩ := conCall_took hc
            cases x with
            | recs l =>
              dsimp only
              by_cases hl : l.length ≤ n
              · rw [if_pos hl]
                refine ⟨fun a s' h => ?_, fun _ _ h => by (cases h)⟩
                cases h
                have g1' := h2.1.trans g1
                simp only [takenRecs, List.nil_append, List.append_nil] at g1'
                refine ⟨g1', g2.trans h2.2, hl, Or.inl ⟨rfl, ?_⟩⟩
                obtain ⟨D1, d1, -⟩ := h2.1
                obtain ⟨D2, d2, d3⟩ := conCall_logged hc
                exact ⟨D1 ++ D2, by rw [d2, d1, List.append_assoc], List.mem_append_right _ d3⟩
              · rw [if_neg hl]
                exact ⟨fun _ _ h => by (cases h), fun _ _ h => by (cases h)⟩
            | fail =>
              refine ⟨fun _ _ h => by (cases h), fun _ _ h => ?_⟩
              cases h
              exact h2.trans ⟨g1, g2⟩
            | ok => exact ⟨fun _ _ h => by (cases h), fun _ _ h => by (cases h)⟩
            | timeout => exact ⟨fun _ _ h => by (cases h), fun _ _ h => by (cases h)⟩
            | handle _ => exact ⟨fun _ _ h => by (cases h), fun _ _ h => by (cases h)⟩
            | mode _ => exact ⟨fun _ _ h => by (cases h), fun _ _ h => by (cases h)⟩
            | info _ => exact ⟨fun _ _ h => by (cases h), fun _ _ h => by (cases h)⟩
            | wrote _ => exact ⟨fun _ _ h => by (cases h), fun _ _ h => by (cases h)⟩
            | chars _ => exact ⟨fun _ _ h => by (cases h), fun _ _ h => by (cases h)⟩

/-- `read_event`: nothing was read and the answer is nothing or a signal, or the event is that of the
record read. -/
theorem readEvent_took (t : WTerm) (d : Option Duration) (s : WinSt) :
    (∀ a s', winReadEvent t d s = .ok a s' →
      (ReadsNone s s' ∧ (a = none ∨ ∃ sig, a = some (.signal sig))) ∨
      ∃ r e, TookTo s s' [r] ∧ a = some e ∧ recordEvent s.rd r = some (e, s'.rd)) ∧
    (∀ e s', winReadEvent t d s = .err e s' → ReadsNone s s') := by
  unfold winReadEvent
  simp only [sm_bind]
  have hr := readRawEvent_took t 1 d s
  cases hm : winReadRawEvent t 1 d s with
  | stop w => exact ⟨fun _ _ h => by (cases h), fun _ _ h => by (cases h)⟩
  | err e s1 =>
    refine ⟨fun _ _ h => by (cases h), fun _ _ h => ?_⟩
    cases h
    exact hr.2 _ _ hm
  | ok r s1 =>
    obtain ⟨h1, h2, h3, h4⟩ := hr.1 _ _ hm
    obtain ⟨ev, l⟩ := r
    dsimp only at h1 h2 h3 h4 ⊢
    rcases h4 with ⟨rfl, -⟩ | ⟨rfl, h4⟩
    · cases l with
      | nil =>
        refine ⟨fun a s' h => ?_, fun _ _ h => by (cases h)⟩
        cases h
        exact Or.inl ⟨⟨h1, h2⟩, Or.inl rfl⟩
      | cons e l =>
        have : l = [] := by
          cases l with
          | nil => rfl
          | cons _ _ => simp at h3
        subst this
        dsimp only
        simp only [sm_bind, sm_get]
        cases hp : recordEvent s1.rd e with
        | none => exact ⟨fun _ _ h => by (cases h), fun _ _ h => by (cases h)⟩
        | some v =>
          obtain ⟨ev, rd⟩ := v
          refine ⟨fun a s' h => ?_, fun _ _ h => by (cases h)⟩
          cases h
          rw [h2] at hp
          exact Or.inr ⟨e, ev, h1, rfl, hp⟩
    · replace h4 : ev = none ∨ ∃ sig, ev = some (.signal sig) := h4.imp And.left id
      have other : (∀ a s', (pure ev : WM (Option Event)) s1 = .ok a s' →
            (ReadsNone s s' ∧ (a = none ∨ ∃ sig, a = some (.signal sig))) ∨
            ∃ r e, TookTo s s' [r] ∧ a = some e ∧ recordEvent s.rd r = some (e, s'.rd)) ∧
          (∀ e s', (pure ev : WM (Option Event)) s1 = .err e s' → ReadsNone s s') :=
        ⟨fun a s' h => by cases h; exact Or.inl ⟨⟨h1, h2⟩, h4⟩, fun _ _ h => by cases h⟩
      rcases h4 with rfl | ⟨sig, rfl⟩
      · exact other
      · exact other

/-! ## All calls -/

/-- Preparing leaves the buttons alone. -/
theorem prepare_took (t : WTerm) (cfg : PrepareConfig) (s : WinSt) :
    (∀ a s', winPrepare t cfg s = .ok a s' → TookTo s s' [] ∧
      s'.rd = if cfg.enableMouse then { s.rd with track := cfg.alwaysTrackMotion } else s.rd) ∧
    (∀ e s', winPrepare t cfg s = .err e s' → TookTo s s' [] ∧ s'.rd.prev = s.rd.prev) := by
  unfold winPrepare
  simp only [sm_bind]
  have hm := inert_mode t.inH s
  cases h0 : consoleMode t.inH s with
  | stop w => exact ⟨fun _ _ h => by (cases h), fun _ _ h => by (cases h)⟩
  | err e s1 =>
    refine ⟨fun _ _ h => by (cases h), fun _ _ h => ?_⟩
    cases h
    have := hm.2 _ _ h0
    exact ⟨this.1, by rw [this.2]⟩
  | ok old s1 =>
    have h1 := hm.1 _ _ h0
    dsimp only
    have hrest : ∀ s2 : WinSt, TookTo s s2 [] →
        (∀ a s', (do
          setConsoleMode t.inH (prepareMode cfg old)
          if cfg.reportSignals.intersects (SignalSet.orSignals .break .interrupt) then
            catchSignals cfg.reportSignals
            boolCall (.setCtrlHandler true)
            pure { oldIn := old, clearHandler := true }
          else
            pure { oldIn := old, clearHandler := false } : WM WinPrepared) s2 = .ok a s' →
          TookTo s s' [] ∧ s'.rd = s2.rd) ∧
        (∀ e s', (do
          setConsoleMode t.inH (prepareMode cfg old)
          if cfg.reportSignals.intersects (SignalSet.orSignals .break .interrupt) then
            catchSignals cfg.reportSignals
            boolCall (.setCtrlHandler true)
            pure { oldIn := old, clearHandler := true }
          else
            pure { oldIn := old, clearHandler := false } : WM WinPrepared) s2 = .err e s' →
          TookTo s s' [] ∧ s'.rd = s2.rd) := by
      intro s2 h2
      have hi : Inert (do
          setConsoleMode t.inH (prepareMode cfg old)
          if cfg.reportSignals.intersects (SignalSet.orSignals .break .interrupt) then
            catchSignals cfg.reportSignals
            boolCall (.setCtrlHandler true)
            pure { oldIn := old, clearHandler := true }
          else
            pure { oldIn := old, clearHandler := false } : WM WinPrepared) := by
        unfold setConsoleMode catchSignals
        inert_tac
      exact ⟨fun a s' h => ⟨h2.trans ((hi s2).1 a s' h).1, ((hi s2).1 a s' h).2⟩,
        fun a s' h => ⟨h2.trans ((hi s2).2 a s' h).1, ((hi s2).2 a s' h).2⟩⟩
    by_cases hc : cfg.enableMouse = true
    · have hw : SM.when (cfg.enableMouse = true) (SM.modify fun s : WinSt =>
          { s with rd := { s.rd with track := cfg.alwaysTrackMotion } }) s1 =
          .ok () { s1 with rd := { s1.rd with track := cfg.alwaysTrackMotion } } := by
        unfold SM.when; rw [if_pos hc]; rfl
      rw [hw]
      dsimp only
      obtain ⟨D, hD, hT⟩ := h1.1
      obtain ⟨k1, k2⟩ := hrest { s1 with rd := { s1.rd with track := cfg.alwaysTrackMotion } } ⟨D, hD, hT⟩
      simp only [sm_bind] at k1 k2
      refine ⟨fun a s' h => ?_, fun e s' h => ?_⟩
      · obtain ⟨g1, g2⟩ := k1 a s' h
        refine ⟨g1, ?_⟩
        rw [g2, if_pos hc, h1.2]
      · obtain ⟨g1, g2⟩ := k2 e s' h
        refine ⟨g1, ?_⟩
        rw [g2, h1.2]
    · have hw : SM.when (cfg.enableMouse = true) (SM.modify fun s : WinSt =>
          { s with rd := { s.rd with track := cfg.alwaysTrackMotion } }) s1 = .ok () s1 := by
        unfold SM.when; rw [if_neg hc]; rfl
      rw [hw]
      dsimp only
      obtain ⟨k1, k2⟩ := hrest s1 h1.1
      simp only [sm_bind] at k1 k2
      refine ⟨fun a s' h => ?_, fun e s' h => ?_⟩
      · obtain ⟨g1, g2⟩ := k1 a s' h
        refine ⟨g1, ?_⟩
        rw [g2, if_neg hc, h1.2]
      · obtain ⟨g1, g2⟩ := k2 e s' h
        refine ⟨g1, ?_⟩
        rw [g2, h1.2]

/-- A call that is not `prepare`, `read_event` or `read_raw_event`. -/
theorem inert_op (t : WTerm) (op : SigOp) (h1 : ¬ op.IsPrepare) (h2 : ∀ d, op ≠ .readEvent d)
    (h3 : ∀ n d, op ≠ .readRawEvent n d) : Inert (op.run t) := by
  have quiet : ∀ {α : Type} {m : WM α}, Inert m → Inert (do let _ ← m; pure none : WM (Option Event)) :=
    fun hm => Inert.bind hm fun _ => Inert.pure _
  cases op with
  | prepare cfg => exact absurd trivial h1
  | wait d => exact quiet (inert_wait t d)
  | readEvent d => exact absurd rfl (h2 d)
  | readRaw n d => exact Inert.bind (inert_readRaw t n d) fun _ => Inert.pure _
  | readRawEvent n d => exact absurd rfl (h3 n d)
  | restore st => exact quiet (by unfold winRestore setConsoleMode; inert_tac)
  | write text => exact quiet (Inert.bind inert_get fun _ => inert_writeLoop _ _ _)
  | attr op => exact quiet (inert_attr t op)
  | moveTo p => exact quiet (by unfold winMoveCursor moveAbs; inert_tac)
  | moveBy off => exact quiet (by unfold moveRel moveAbs; inert_tac)
  | clearScreen => exact quiet (by unfold winClearScreen clearArea moveAbs moveWindow; inert_tac)
  | clearLine => exact quiet (by unfold winClearToLineEnd clearArea; inert_tac)
  | clearRest => exact quiet (by unfold winClearToScreenEnd clearArea; inert_tac)
  | cursorMode m => exact quiet (by unfold winCursorMode; inert_tac)

/-- The same for `gives`. -/
theorem gives_of_run (t : WTerm) (op : SigOp) (h3 : ∀ n d, op ≠ .readRawEvent n d) :
    op.gives t = (op.run t >>= fun r => pure (r, [])) := by
  cases op <;> first | rfl | exact absurd rfl (h3 _ _)

theorem gives_ok {t : WTerm} {op : SigOp} (h3 : ∀ n d, op ≠ .readRawEvent n d) {s s' : WinSt}
    {a : Option Event × List InRec} (h : op.gives t s = .ok a s') : op.run t s = .ok a.1 s' ∧ a.2 = [] := by
  rw [gives_of_run t op h3] at h
  simp only [sm_bind] at h
  cases e : op.run t s <;> rw [e] at h <;> cases h
  exact ⟨rfl, rfl⟩

theorem gives_err {t : WTerm} {op : SigOp} (h3 : ∀ n d, op ≠ .readRawEvent n d) {s s' : WinSt}
    {x : IoErr} (h : op.gives t s = .err x s') : op.run t s = .err x s' := by
  rw [gives_of_run t op h3] at h
  simp only [sm_bind] at h
  cases e : op.run t s <;> rw [e] at h <;> cases h
  rfl

/-! ## Records and events -/

theorem recordEvent_says {rd rd' : WReader} {r : InRec} {e : Event}
    (h : recordEvent rd r = some (e, rd')) : SaysOf r e := by
  unfold recordEvent at h
  cases r with
  | key k =>
    cases hk : keyPressEvent (.key k) with
    | some key => rw [hk] at h; cases h; exact Or.inr ⟨key, rfl⟩
    | none => rw [hk] at h; cases h; exact Or.inl rfl
  | other => cases h; rfl
  | size z =>
    cases h
    refine ⟨_, rfl, fun h1 h2 h3 h4 => ?_⟩
    obtain ⟨x, y⟩ := z
    unfold IsShort at h3 h4
    dsimp only at h1 h2 h3 h4
    simp only [sizeCoord, shortToUsize, Coord.mk.injEq]
    omega
  | mouse m =>
    have hk : keyPressEvent (.mouse m) = none := rfl
    rw [hk] at h
    simp only [winMouseEvent] at h
    cases hw : winMouseInput rd m with
    | none => rw [hw] at h; cases h
    | some v =>
      obtain ⟨i, r'⟩ := v
      rw [hw] at h
      cases i with
      | none => cases h; exact Or.inl rfl
      | some i =>
        cases h
        refine Or.inr ⟨_, rfl, fun h1 h2 h3 h4 => ?_⟩
        rcases m with ⟨⟨x, y⟩, b, ks, f⟩
        unfold IsShort at h3 h4
        dsimp only at h1 h2 h3 h4
        simp only [atCoord, coordToCursor, shortToUsize, Coord.mk.injEq]
        omega

/-- Every call: what it took is as its result shows. -/
theorem op_took (t : WTerm) (op : SigOp) (s s' : WinSt) :
    (∀ a, op.gives t s = .ok a s' → ∃ l, TookTo s s' l ∧
      (TookFor op (some a) l ∨
        ∃ n D, s'.log = s.log ++ D ∧ WEv.call (.readInput t.inH n) (.recs []) ∈ D)) ∧
    (∀ e, op.gives t s = .err e s' → TookTo s s' [] ∧ TookFor op none []) := by
  by_cases h3 : ∃ n d, op = .readRawEvent n d
  · obtain ⟨n, d, rfl⟩ := h3
    have h := readRawEvent_took t n d s
    refine ⟨fun a ha => ?_, fun e he => ⟨(h.2 e s' he).1, rfl⟩⟩
    obtain ⟨h1, h2, h4, h5⟩ := h.1 a s' ha
    refine ⟨a.2, h1, ?_⟩
    obtain ⟨ev, l⟩ := a
    dsimp only at h4 h5 ⊢
    rcases h5 with ⟨rfl, h6⟩ | h5
    · cases l with
      | nil => exact Or.inr ⟨_, h6⟩
      | cons x l => exact Or.inl ⟨rfl, h4, Or.inl ⟨rfl, by simp⟩⟩
    · exact Or.inl ⟨rfl, h4, Or.inr ⟨h5.1, h5.2.imp And.left id⟩⟩
  · have h3' : ∀ n d, op ≠ .readRawEvent n d := fun n d e => h3 ⟨n, d, e⟩
    by_cases h2 : ∃ d, op = .readEvent d
    · obtain ⟨d, rfl⟩ := h2
      have h := readEvent_took t d s
      refine ⟨fun a ha => ?_, fun e he => ⟨(h.2 e s' (gives_err h3' he)).1, rfl⟩⟩
      obtain ⟨g1, g2⟩ := gives_ok h3' ha
      obtain ⟨ev, l⟩ := a
      dsimp only at g1 g2
      subst g2
      rcases h.1 _ _ g1 with ⟨k1, k2⟩ | ⟨r, e, k1, rfl, k3⟩
      · exact ⟨[], k1.1, Or.inl (Or.inl ⟨rfl, k2⟩)⟩
      · exact ⟨[r], k1, Or.inl (Or.inr ⟨r, e, rfl, rfl, recordEvent_says k3⟩)⟩
    · have h2' : ∀ d, op ≠ .readEvent d := fun d e => h2 ⟨d, e⟩
      have hf : ∀ res, TookFor op res [] := by
        intro res
        cases op <;> first | rfl | exact absurd rfl (h2' _) | exact absurd rfl (h3' _ _)
      by_cases h1 : op.IsPrepare
      · cases op <;> simp only [SigOp.IsPrepare] at h1
        rename_i cfg
        have h := prepare_took t cfg s
        refine ⟨fun a ha => ⟨[], ?_, Or.inl (hf _)⟩, fun e he => ⟨?_, hf _⟩⟩
        · obtain ⟨g1, -⟩ := gives_ok h3' ha
          simp only [SigOp.run, sm_bind] at g1
          cases e : winPrepare t cfg s with
          | ok p s1 =>
            rw [e] at g1
            obtain rfl : s1 = s' := by injection g1
            exact (h.1 _ _ e).1
          | err _ _ => rw [e] at g1; cases g1
          | stop _ => rw [e] at g1; cases g1
        · have g1 := gives_err h3' he
          simp only [SigOp.run, sm_bind] at g1
          cases e : winPrepare t cfg s <;> rw [e] at g1 <;> cases g1
          exact (h.2 _ _ e).1
      · have h := inert_op t op h1 h2' h3'
        exact ⟨fun a ha => ⟨[], ((h s).1 _ _ (gives_ok h3' ha).1).1, Or.inl (hf _)⟩,
          fun e he => ⟨((h s).2 _ _ (gives_err h3' he)).1, hf _⟩⟩

/-! ## Histories -/

/-- A read that gives nothing is not possible. -/
theorem runs_no_empty {u : UEnv} {k : Nat} (D : List WEv) : ∀ (c c' : Con), c.Runs u k D →
    c.play u k D = some c' → ∀ h n, WEv.call (.readInput h n) (.recs []) ∉ D := by
  induction D with
  | nil => intro c c' _ _ h n hm; cases hm
  | cons e D ih =>
    intro c c' hr hp h n hm
    obtain ⟨h1, h2⟩ := hr
    unfold Con.play at hp
    rw [Option.bind_eq_some_iff] at hp
    obtain ⟨c1, hc1, hp⟩ := hp
    rcases List.mem_cons.mp hm with rfl | hm
    · rcases h1 with h1 | ⟨l, e, -, -, -, hl⟩
      · cases h1
      · cases e; exact hl rfl
    · exact ih c1 c' (h2 c1 hc1) hp h n hm

theorem con_runs_left {u : UEnv} {k : Nat} {a b : List WEv} {c c' : Con} (hr : c.Runs u k (a ++ b))
    (hp : c.play u k (a ++ b) = some c') :
    ∃ c1, c.Runs u k a ∧ c.play u k a = some c1 ∧ c1.Runs u k b ∧ c1.play u k b = some c' := by
  induction a generalizing c with
  | nil => exact ⟨c, trivial, rfl, hr, hp⟩
  | cons e a ih =>
    obtain ⟨h1, h2⟩ := hr
    change (c.step u k e).bind (Con.play u k (a ++ b)) = some c' at hp
    rw [Option.bind_eq_some_iff] at hp
    obtain ⟨c1, hc1, hp⟩ := hp
    obtain ⟨c2, g1, g2, g3⟩ := ih (h2 c1 hc1) hp
    refine ⟨c2, ⟨h1, fun c'' hc'' => ?_⟩, ?_, g3⟩
    · rw [hc1] at hc''; cases hc''; exact g1
    · show (c.step u k e).bind _ = _
      rw [hc1]; exact g2

/-- A call, and the records and the console at its end. -/
theorem callsMade_cons {t : WTerm} {op : SigOp} {ops : List SigOp} {s s' : WinSt}
    {n : List (SigOp × Option (Option Event × List InRec))} (h : callsMade t (op :: ops) s = some (n, s')) :
    ∃ res n' s1, n = (op, res) :: n' ∧ callsMade t ops s1 = some (n', s') ∧
      ((∃ a, res = some a ∧ op.gives t s = .ok a s1) ∨ (∃ e, res = none ∧ op.gives t s = .err e s1)) := by
  unfold callsMade at h
  cases e : op.gives t s with
  | stop w => rw [e] at h; cases h
  | ok r s1 =>
    rw [e] at h
    dsimp only at h
    rw [Option.map_eq_some_iff] at h
    obtain ⟨⟨n1, s2⟩, h1, h2⟩ := h
    cases h2
    exact ⟨_, n1, s1, rfl, h1, Or.inl ⟨r, rfl, rfl⟩⟩
  | err r s1 =>
    rw [e] at h
    dsimp only at h
    rw [Option.map_eq_some_iff] at h
    obtain ⟨⟨n1, s2⟩, h1, h2⟩ := h
    cases h2
    exact ⟨_, n1, s1, rfl, h1, Or.inr ⟨r, rfl, rfl⟩⟩

theorem op_took_any {t : WTerm} {op : SigOp} {s s1 : WinSt} {res : Option (Option Event × List InRec)}
    (h : (∃ a, res = some a ∧ op.gives t s = .ok a s1) ∨ (∃ e, res = none ∧ op.gives t s = .err e s1)) :
    ∃ D, s1.log = s.log ++ D ∧ (TookFor op res (takenRecs D) ∨ ∃ n, WEv.call (.readInput t.inH n) (.recs []) ∈ D) := by
  rcases h with ⟨a, rfl, h⟩ | ⟨e, rfl, h⟩
  · obtain ⟨l, ⟨D, h1, rfl⟩, h2 | ⟨n, D', h3, h4⟩⟩ := (op_took t op s s1).1 a h
    · exact ⟨D, h1, Or.inl h2⟩
    · rw [h1] at h3
      rw [← List.append_cancel_left h3] at h4
      exact ⟨D, h1, Or.inr ⟨n, h4⟩⟩
  · obtain ⟨⟨D, h1, h2⟩, h3⟩ := (op_took t op s s1).2 e h
    exact ⟨D, h1, Or.inl (by rw [h2]; exact h3)⟩

theorem callsMade_log {t : WTerm} (ops : List SigOp) : ∀ {s s' : WinSt}
    {n : List (SigOp × Option (Option Event × List InRec))}, callsMade t ops s = some (n, s') →
    ∃ D, s'.log = s.log ++ D := by
  induction ops with
  | nil => intro s s' n h; cases h; exact ⟨[], by simp⟩
  | cons op ops ih =>
    intro s s' n h
    obtain ⟨res, n', s1, -, h1, h2⟩ := callsMade_cons h
    obtain ⟨D, h3, -⟩ := op_took_any h2
    obtain ⟨D', h4⟩ := ih h1
    exact ⟨D ++ D', by rw [h4, h3, List.append_assoc]⟩

theorem callsMade_took {u : UEnv} {t : WTerm} (ops : List SigOp) : ∀ {s s' : WinSt} {c c' : Con}
    {n : List (SigOp × Option (Option Event × List InRec))} {D : List WEv},
    callsMade t ops s = some (n, s') → s'.log = s.log ++ D → c.Runs u t.inH D →
    c.play u t.inH D = some c' → TookAll n (takenRecs D) := by
  induction ops with
  | nil =>
    intro s s' c c' n D h hl _ _
    cases h
    have : D = [] := by simpa using hl
    subst this
    exact .nil
  | cons op ops ih =>
    intro s s' c c' n D h hl hr hp
    obtain ⟨res, n', s1, rfl, h1, h2⟩ := callsMade_cons h
    obtain ⟨D1, h3, h4⟩ := op_took_any h2
    obtain ⟨D2, h5⟩ := callsMade_log ops h1
    obtain rfl : D = D1 ++ D2 := by
      rw [h5, h3, List.append_assoc] at hl
      exact (List.append_cancel_left hl).symm
    obtain ⟨c1, g1, g2, g3, g4⟩ := con_runs_left hr hp
    rw [takenRecs_append]
    refine .cons ?_ (ih h1 h5 g3 g4)
    rcases h4 with h4 | ⟨m, h4⟩
    · exact h4
    · exact absurd h4 (runs_no_empty D1 c c1 g1 g2 _ _)

end Mortal
