import Verif.Lemmas.WinHandlesLife

/-! # Opening and leaving screens on Windows, and their handles: helper lemmas -/

namespace Mortal
open Spec

/-! ## Which calls made code fail -/

/-- When the code fails then because one of the calls `N` failed. -/
def Blames (N : ConCall → Prop) {α : Type} (m : WM α) : Prop :=
  ∀ s, (∀ x s', m s = .ok x s' → ∃ D, s'.log = s.log ++ D) ∧
    (∀ x s', m s = .err x s' → ∃ D, s'.log = s.log ++ D ∧ ∃ c, N c ∧ .call c .fail ∈ D)

variable {N : ConCall → Prop}

theorem Blames.pure {α : Type} (x : α) : Blames N (pure x : WM α) :=
  fun s => ⟨fun _ _ h => by cases h; exact ⟨[], by simp⟩, fun _ _ h => by cases h⟩

theorem Blames.bind {α β : Type} {m : WM α} {f : α → WM β} (h : Blames N m)
    (hf : ∀ x, Blames N (f x)) : Blames N (m >>= f) := by
  intro s
  simp only [sm_bind]
  constructor
  · intro y s' e
    cases hm : m s with
    | ok x s1 =>
      rw [hm] at e
      obtain ⟨D1, e1⟩ := (h s).1 x s1 hm
      obtain ⟨D2, e2⟩ := (hf x s1).1 y s' e
      exact ⟨D1 ++ D2, by rw [e2, e1, List.append_assoc]⟩
    | err e' s1 => rw [hm] at e; cases e
    | stop w => rw [hm] at e; cases e
  · intro y s' e
    cases hm : m s with
    | ok x s1 =>
      rw [hm] at e
      obtain ⟨D1, e1⟩ := (h s).1 x s1 hm
      obtain ⟨D2, e2, c, hc, hm⟩ := (hf x s1).2 y s' e
      exact ⟨D1 ++ D2, by rw [e2, e1, List.append_assoc], c, hc, List.mem_append_right _ hm⟩
    | err e' s1 => rw [hm] at e; cases e; exact (h s).2 _ _ hm
    | stop w => rw [hm] at e; cases e

theorem blames_modify {f : WinSt → WinSt} (h1 : ∀ s, (f s).log = s.log) : Blames N (SM.modify f) := by
  refine fun s => ⟨fun _ _ h => ?_, fun _ _ h => by cases h⟩
  cases h
  exact ⟨[], by simp [h1]⟩

theorem blames_conCall (c : ConCall) : Blames N (conCall c) := by
  refine fun s => ⟨fun x s' h => ?_, fun x s' h => absurd h conCall_no_err⟩
  obtain ⟨-, D, h2, -⟩ := conCall_inv 0 0 h
  exact ⟨D ++ [.call c x], by rw [h2, List.append_assoc]⟩

/-- A call whose answer is looked at for failure. -/
theorem boolCall_cases {c : ConCall} (a b : Nat) (s : WinSt) :
    (∀ x s', boolCall c s = .ok x s' → s'.outH = s.outH ∧ ∃ D, s'.log = s.log ++ D ++ [.call c .ok] ∧
      ∀ e ∈ D, PlainEv a b e ∧ ∀ c x, e ≠ .call c x) ∧
    (∀ x s', boolCall c s = .err x s' → s'.outH = s.outH ∧
      ∃ D, s'.log = s.log ++ D ++ [.call c .fail] ∧ ∀ e ∈ D, PlainEv a b e ∧ ∀ c x, e ≠ .call c x) := by
  unfold boolCall
  simp only [sm_bind]
  cases hc : conCall c s with
  | ok y s1 =>
    have h := conCall_inv a b hc
    cases y <;> exact ⟨fun _ _ e => by cases e <;> exact h, fun _ _ e => by cases e <;> exact h⟩
  | err y s1 => exact absurd hc conCall_no_err
  | stop w => exact ⟨fun _ _ e => by (cases e), fun _ _ e => by (cases e)⟩

theorem blames_boolCall {c : ConCall} (hc : N c) : Blames N (boolCall c) := by
  intro s
  have h := boolCall_cases (c := c) 0 0 s
  constructor
  · intro x s' e
    obtain ⟨-, D, e1, -⟩ := h.1 x s' e
    exact ⟨D ++ [.call c .ok], by rw [e1, List.append_assoc]⟩
  · intro x s' e
    obtain ⟨-, D, e1, -⟩ := h.2 x s' e
    exact ⟨D ++ [.call c .fail], by rw [e1, List.append_assoc], c, hc, by simp⟩

theorem blames_mode {h : Nat} (hc : N (.getMode h)) : Blames N (consoleMode h) := by
  intro s
  cases hr : conCall (.getMode h) s with
  | ok y s1 =>
    obtain ⟨-, D, e1, -⟩ := conCall_inv 0 0 hr
    have hd : consoleMode h s = (match y with
        | .mode m => (pure m : WM (BitVec 32))
        | .fail => SM.throw .os
        | _ => SM.halt .blocked) s1 := by
      rw [consoleMode, sm_bind, hr]
      cases y <;> rfl
    rw [hd]
    cases y with
    | mode m =>
      refine ⟨fun _ _ e => ?_, fun _ _ e => by (cases e)⟩
      cases e; exact ⟨D ++ [.call (.getMode h) (.mode m)], by rw [e1, List.append_assoc]⟩
    | fail =>
      refine ⟨fun _ _ e => by (cases e), fun _ _ e => ?_⟩
      cases e; exact ⟨D ++ [.call (.getMode h) .fail], by rw [e1, List.append_assoc], _, hc, by simp⟩
    | _ => exact ⟨fun _ _ e => by (cases e), fun _ _ e => by (cases e)⟩
  | err y s1 => exact absurd hr conCall_no_err
  | stop w =>
    have hd : consoleMode h s = .stop w := by rw [consoleMode, sm_bind, hr]
    rw [hd]
    exact ⟨fun _ _ e => by (cases e), fun _ _ e => by (cases e)⟩

theorem blames_when {p : Prop} [Decidable p] {m : WM Unit} (h : Blames N m) : Blames N (SM.when p m) := by
  unfold SM.when
  split
  · exact h
  · exact Blames.pure _

theorem blames_prepare (t : WTerm) (cfg : PrepareConfig) (old h : Nat) :
    Blames (Needed t.inH old h) (winPrepare t cfg) := by
  unfold winPrepare setConsoleMode catchSignals
  refine Blames.bind (blames_mode (Or.inr rfl)) fun m => ?_
  refine Blames.bind (blames_when (blames_modify fun _ => rfl)) fun _ => ?_
  refine Blames.bind (blames_boolCall (Or.inr rfl)) fun _ => ?_
  split
  · refine Blames.bind (Blames.bind (blames_conCall _) fun _ => blames_modify fun _ => rfl) fun _ => ?_
    exact Blames.bind (blames_boolCall trivial) fun _ => Blames.pure _
  · exact Blames.pure _

theorem blames_restore (t : WTerm) (st : WinPrepared) (old h : Nat) :
    Blames (Needed t.inH old h) (winRestore t st) := by
  unfold winRestore setConsoleMode
  refine Blames.bind (blames_when (blames_boolCall trivial)) fun m => ?_
  exact blames_boolCall (Or.inr rfl)

/-! ## What the calls do to the handles open -/

/-- From `s` to `s'` the handles open change from `k` to `k'`. -/
def Trade (k k' : Handles) (s s' : WinSt) : Prop :=
  ∃ D, s'.log = s.log ++ D ∧ k.followL D = some k'

theorem Trade.trans {k k1 k2 : Handles} {s s1 s2 : WinSt} (h1 : Trade k k1 s s1) (h2 : Trade k1 k2 s1 s2) :
    Trade k k2 s s2 := by
  obtain ⟨D1, e1, f1⟩ := h1
  obtain ⟨D2, e2, f2⟩ := h2
  refine ⟨D1 ++ D2, by rw [e2, e1, List.append_assoc], ?_⟩
  rw [handles_append, f1]
  exact f2

theorem Plainly.trade {k : Handles} {a b : Nat} {s s' : WinSt} (h : Plainly a b s s')
    (ha : a ∈ k.lent ∨ a ∈ k.own) (hb : b ∈ k.lent ∨ b ∈ k.own) : Trade k k s s' := by
  obtain ⟨-, D, e, p⟩ := h
  exact ⟨D, e, plain_follow ha hb p⟩

theorem quiet_follow {k : Handles} {D : List WEv}
    (hD : ∀ e ∈ D, PlainEv 0 0 e ∧ ∀ c x, e ≠ .call c x) : k.followL D = some k := by
  induction D with
  | nil => rfl
  | cons e D ih =>
    have he := hD e List.mem_cons_self
    have : k.stepL e = some k := by
      cases e with
      | ctrl t x y => rfl
      | input r => rfl
      | call c x => exact absurd rfl (he.2 c x)
    simp only [Handles.followL, this]
    exact ih fun x hx => hD x (List.mem_cons_of_mem _ hx)

theorem call_trade {k k' : Handles} {s s' : WinSt} {D : List WEv} {e : WEv}
    (h : s'.log = s.log ++ D ++ [e]) (hD : ∀ e ∈ D, PlainEv 0 0 e ∧ ∀ c x, e ≠ .call c x)
    (he : k.stepL e = some k') : Trade k k' s s' := by
  refine ⟨D ++ [e], by rw [h, List.append_assoc], ?_⟩
  rw [handles_append, quiet_follow hD]
  simp only [Option.bind_some, Handles.followL, he]

theorem handleCall_cases {c : ConCall} (s : WinSt) :
    (∀ h s', handleCall c s = .ok h s' → h ≠ 0 ∧ s'.outH = s.outH ∧
      ∃ D, s'.log = s.log ++ D ++ [.call c (.handle h)] ∧
        ∀ e ∈ D, PlainEv 0 0 e ∧ ∀ c x, e ≠ .call c x) ∧
    (∀ x s', handleCall c s = .err x s' → s'.outH = s.outH ∧
      ∃ D, s'.log = s.log ++ D ++ [.call c (.handle 0)] ∧
        ∀ e ∈ D, PlainEv 0 0 e ∧ ∀ c x, e ≠ .call c x) := by
  cases hc : conCall c s with
  | ok y s1 =>
    have h := conCall_inv 0 0 hc
    have hd : handleCall c s = (match (generalizing := false) y with
        | .handle h => if h = 0 then SM.throw .os else pure h
        | _ => SM.halt .blocked : WM Nat) s1 := by
      rw [handleCall, sm_bind, hc]
      cases y <;> rfl
    rw [hd]
    cases y with
    | handle h0 =>
      dsimp only
      by_cases hz : h0 = 0
      · rw [if_pos hz]; subst hz
        exact ⟨fun _ _ e => by (cases e), fun _ _ e => by cases e; exact h⟩
      · rw [if_neg hz]
        exact ⟨fun _ _ e => by cases e; exact ⟨hz, h⟩, fun _ _ e => by (cases e)⟩
    | _ => exact ⟨fun _ _ e => by (cases e), fun _ _ e => by (cases e)⟩
  | err y s1 => exact absurd hc conCall_no_err
  | stop w =>
    have hd : handleCall c s = .stop w := by rw [handleCall, sm_bind, hc]
    rw [hd]
    exact ⟨fun _ _ e => by (cases e), fun _ _ e => by (cases e)⟩

/-- From `s` to `s'` the buffer `h` was made and is open. -/
def Opens (k : Handles) (h : Nat) (s s' : WinSt) : Prop :=
  ∃ A B, s'.log = s.log ++ (A ++ .call .create (.handle h) :: B) ∧
    k.followL (A ++ .call .create (.handle h) :: B) = some { k with own := h :: k.own }

/-- It is open, and a call needed for closing it failed. -/
def Leaks (inH o : Nat) (k : Handles) (h : Nat) (s s' : WinSt) : Prop :=
  ∃ A B c, s'.log = s.log ++ (A ++ .call .create (.handle h) :: B) ∧
    k.followL (A ++ .call .create (.handle h) :: B) = some { k with own := h :: k.own } ∧
    Needed inH o h c ∧ .call c .fail ∈ B

theorem Trade.opens {k : Handles} {h : Nat} {s s1 s2 : WinSt} (h1 : Trade k k s s1) (h2 : Opens k h s1 s2) :
    Opens k h s s2 := by
  obtain ⟨D, e1, f1⟩ := h1
  obtain ⟨A, B, e2, f2⟩ := h2
  refine ⟨D ++ A, B, by rw [e2, e1]; simp, ?_⟩
  rw [List.append_assoc, handles_append, f1]
  exact f2

theorem Opens.trade {k : Handles} {h : Nat} {s s1 s2 : WinSt} (h1 : Opens k h s s1)
    (h2 : Trade { k with own := h :: k.own } { k with own := h :: k.own } s1 s2) : Opens k h s s2 := by
  obtain ⟨A, B, e1, f1⟩ := h1
  obtain ⟨D, e2, f2⟩ := h2
  refine ⟨A, B ++ D, by rw [e2, e1]; simp, ?_⟩
  have : A ++ .call .create (.handle h) :: (B ++ D) = (A ++ .call .create (.handle h) :: B) ++ D := by simp
  rw [this, handles_append, f1]
  exact f2

theorem Opens.close {k k' : Handles} {h : Nat} {s s1 s2 : WinSt} (h1 : Opens k h s s1)
    (h2 : Trade { k with own := h :: k.own } k' s1 s2) : Trade k k' s s2 := by
  obtain ⟨A, B, e1, f1⟩ := h1
  exact Trade.trans ⟨_, e1, f1⟩ h2

theorem Opens.leaks {inH o : Nat} {k : Handles} {h : Nat} {s s1 s2 : WinSt} (h1 : Opens k h s s1)
    {D : List WEv} (e2 : s2.log = s1.log ++ D)
    (f2 : Handles.followL { k with own := h :: k.own } D = some { k with own := h :: k.own })
    {c : ConCall} (hc : Needed inH o h c) (hm : .call c .fail ∈ D) : Leaks inH o k h s s2 := by
  obtain ⟨A, B, e1, f1⟩ := h1
  refine ⟨A, B ++ D, c, by rw [e2, e1]; simp, ?_, hc, List.mem_append_right _ hm⟩
  have : A ++ .call .create (.handle h) :: (B ++ D) = (A ++ .call .create (.handle h) :: B) ++ D := by simp
  rw [this, handles_append, f1]
  exact f2

theorem Trade.leaks {inH o : Nat} {k : Handles} {h : Nat} {s s1 s2 : WinSt} (h1 : Trade k k s s1)
    (h2 : Leaks inH o k h s1 s2) : Leaks inH o k h s s2 := by
  obtain ⟨D, e1, f1⟩ := h1
  obtain ⟨A, B, c, e2, f2, g⟩ := h2
  refine ⟨D ++ A, B, c, by rw [e2, e1]; simp, ?_, g⟩
  rw [List.append_assoc, handles_append, f1]
  exact f2

theorem Leaks.trade {inH o : Nat} {k : Handles} {h : Nat} {s s1 s2 : WinSt} (h1 : Leaks inH o k h s s1)
    (h2 : Trade { k with own := h :: k.own } { k with own := h :: k.own } s1 s2) :
    Leaks inH o k h s s2 := by
  obtain ⟨A, B, c, e1, f1, hc, hm⟩ := h1
  obtain ⟨D, e2, f2⟩ := h2
  refine ⟨A, B ++ D, c, by rw [e2, e1]; simp, ?_, hc, List.mem_append_left _ hm⟩
  have : A ++ .call .create (.handle h) :: (B ++ D) = (A ++ .call .create (.handle h) :: B) ++ D := by simp
  rw [this, handles_append, f1]
  exact f2

/-! ## Entering and leaving -/

theorem uses_setup {h o : Nat} (z : Size) : UsesOnly h o (setupScreen h z) := by
  unfold setupScreen; uses_tac

/-- A call after an opening that fails. -/
theorem open_fail {inH o h : Nat} {k : Handles} {s s1 s2 : WinSt} (ho : Opens k h s s1)
    {α : Type} {m : WM α} {a b : Nat} (hu : UsesOnly a b m) (hb : Blames (Needed inH o h) m)
    (h1 : s1.outH = b) {x : IoErr} (he : m s1 = .err x s2)
    (ha : a ∈ k.lent ∨ a ∈ h :: k.own) (hbk : b ∈ k.lent ∨ b ∈ h :: k.own) :
    s2.outH = b ∧ Leaks inH o k h s s2 := by
  obtain ⟨o2, D, e2, p2⟩ := (hu s1 h1).2 _ _ he
  obtain ⟨D', e2', c, hc, hm⟩ := (hb s1).2 _ _ he
  have : D' = D := List.append_cancel_left (e2'.symm.trans e2)
  subst this
  exact ⟨o2, ho.leaks e2 (plain_follow (k := { k with own := h :: k.own }) ha hbk p2) hc hm⟩

theorem enter_cases {inH : Nat} {k : Handles} (s : WinSt) (ho : s.outH ∈ k.lent) :
    (∀ old s', winEnterScreen s = .ok old s' →
      old = s.outH ∧ Opens k s'.outH s s') ∧
    (∀ x s', winEnterScreen s = .err x s' →
      (s'.outH = s.outH ∧ Trade k k s s') ∨
      (∃ h, (s'.outH = s.outH ∨ s'.outH = h) ∧ Leaks inH s.outH k h s s')) := by
  unfold winEnterScreen
  rw [sm_bind]
  have hsz := uses_size (a := s.outH) (b := s.outH) s rfl
  cases h1 : winSize s with
  | stop w => exact ⟨fun _ _ e => by (cases e), fun _ _ e => by (cases e)⟩
  | err x s1 =>
    refine ⟨fun _ _ e => by (cases e), fun _ _ e => ?_⟩
    cases e
    have := hsz.2 _ _ h1
    exact Or.inl ⟨this.1, Plainly.trade this (Or.inl ho) (Or.inl ho)⟩
  | ok z s1 =>
    have p1 := hsz.1 _ _ h1
    have t1 : Trade k k s s1 := Plainly.trade p1 (Or.inl ho) (Or.inl ho)
    have o1 : s1.outH = s.outH := p1.1
    dsimp only
    rw [sm_bind]
    have hh := handleCall_cases (c := .create) s1
    cases h2 : handleCall .create s1 with
    | stop w => exact ⟨fun _ _ e => by (cases e), fun _ _ e => by (cases e)⟩
    | err x s2 =>
      refine ⟨fun _ _ e => by (cases e), fun _ _ e => ?_⟩
      cases e
      obtain ⟨o2, D, e2, q2⟩ := hh.2 _ _ h2
      exact Or.inl ⟨o2.trans o1, t1.trans (call_trade e2 q2 rfl)⟩
    | ok h s2 =>
      obtain ⟨hz, o2, D, e2, q2⟩ := hh.1 _ _ h2
      have op2 : Opens k h s s2 := by
        refine t1.opens ⟨D, [], by rw [e2]; simp, ?_⟩
        rw [handles_append, quiet_follow q2]
        simp [Handles.followL, Handles.stepL, hz]
      have oo2 : s2.outH = s.outH := o2.trans o1
      dsimp only
      rw [sm_bind]
      have hse := uses_setup (h := h) (o := s.outH) z s2 oo2
      unfold SM.onErr
      cases h3 : setupScreen h z s2 with
      | stop w => exact ⟨fun _ _ e => by (cases e), fun _ _ e => by (cases e)⟩
      | err x s3 =>
        have p3 := hse.2 _ _ h3
        have op3 : Opens k h s s3 :=
          op2.trade (Plainly.trade p3 (Or.inr List.mem_cons_self) (Or.inl ho))
        dsimp only
        have hcl := boolCall_cases (c := .close h) 0 0 s3
        cases h4 : boolCall (.close h) s3 with
        | stop w => exact ⟨fun _ _ e => by (cases e), fun _ _ e => by (cases e)⟩
        | ok y s4 =>
          refine ⟨fun _ _ e => by (cases e), fun _ _ e => ?_⟩
          cases e
          obtain ⟨o4, D4, e4, q4⟩ := hcl.1 _ _ h4
          refine Or.inl ⟨o4.trans p3.1, op3.close (call_trade e4 q4 ?_)⟩
          simp [Handles.stepL]
        | err y s4 =>
          refine ⟨fun _ _ e => by (cases e), fun _ _ e => ?_⟩
          cases e
          obtain ⟨o4, D4, e4, q4⟩ := hcl.2 _ _ h4
          refine Or.inr ⟨h, Or.inl (o4.trans p3.1), ?_⟩
          refine op3.leaks (c := .close h) (D := D4 ++ [.call (.close h) .fail])
            (by rw [e4, List.append_assoc]) ?_ rfl (by simp)
          rw [handles_append, quiet_follow q4]
          simp [Handles.followL, Handles.stepL]
      | ok y s3 =>
        have p3 := hse.1 _ _ h3
        have op3 : Opens k h s s3 :=
          op2.trade (Plainly.trade p3 (Or.inr List.mem_cons_self) (Or.inl ho))
        dsimp only
        rw [sm_bind]
        show (∀ old s', (SM.modify (fun s => { s with outH := h }) >>= fun _ => consoleMode h >>= fun m =>
              setConsoleMode h (m &&& ~~~(ENABLE_WRAP_AT_EOL_OUTPUT ||| DISABLE_NEWLINE_AUTO_RETURN)) >>=
                fun _ => (pure s3.outH : WM Nat)) s3 = .ok old s' → _) ∧
          (∀ x s', (SM.modify (fun s => { s with outH := h }) >>= fun _ => consoleMode h >>= fun m =>
              setConsoleMode h (m &&& ~~~(ENABLE_WRAP_AT_EOL_OUTPUT ||| DISABLE_NEWLINE_AUTO_RETURN)) >>=
                fun _ => (pure s3.outH : WM Nat)) s3 = .err x s' → _)
        rw [sm_bind]
        have op4 : Opens k h s { s3 with outH := h } := op3
        have hu : UsesOnly h h (consoleMode h >>= fun m =>
              setConsoleMode h (m &&& ~~~(ENABLE_WRAP_AT_EOL_OUTPUT ||| DISABLE_NEWLINE_AUTO_RETURN)) >>=
                fun _ => (pure s3.outH : WM Nat)) := by
          refine UsesOnly.bind (uses_mode (Or.inl rfl)) fun m => UsesOnly.bind ?_ fun _ => UsesOnly.pure _
          exact uses_boolCall rfl fun _ e => by cases e; exact Or.inl rfl
        have hb : Blames (Needed inH s.outH h) (consoleMode h >>= fun m =>
              setConsoleMode h (m &&& ~~~(ENABLE_WRAP_AT_EOL_OUTPUT ||| DISABLE_NEWLINE_AUTO_RETURN)) >>=
                fun _ => (pure s3.outH : WM Nat)) := by
          refine Blames.bind (blames_mode (Or.inl rfl)) fun m => Blames.bind ?_ fun _ => Blames.pure _
          exact blames_boolCall (Or.inl rfl)
        constructor
        · intro old s' e
          obtain ⟨o5, p5⟩ := (hu { s3 with outH := h } rfl).1 _ _ e
          have hold : old = s3.outH := by
            simp only [sm_bind, SM.modify] at e
            cases h6 : consoleMode h { s3 with outH := h } with
            | ok m s6 =>
              rw [h6] at e
              dsimp only at e
              cases h7 : setConsoleMode h
                (m &&& ~~~(ENABLE_WRAP_AT_EOL_OUTPUT ||| DISABLE_NEWLINE_AUTO_RETURN)) s6 with
              | ok y s7 => rw [h7] at e; cases e; rfl
              | err y s7 => rw [h7] at e; cases e
              | stop w => rw [h7] at e; cases e
            | err m s6 => rw [h6] at e; cases e
            | stop w => rw [h6] at e; cases e
          refine ⟨hold.trans p3.1, ?_⟩
          rw [o5]
          exact op4.trade (Plainly.trade ⟨o5, p5⟩ (Or.inr List.mem_cons_self) (Or.inr List.mem_cons_self))
        · intro x s' e
          obtain ⟨o5, l5⟩ := open_fail op4 hu hb rfl e (Or.inr List.mem_cons_self)
            (Or.inr List.mem_cons_self)
          exact Or.inr ⟨h, Or.inr o5, l5⟩

theorem screenNew_cases {t : WTerm} {cfg : PrepareConfig} {k : Handles} (s : WinSt)
    (hi : t.inH ∈ k.lent) (ho : s.outH ∈ k.lent) :
    (∀ x d s', winScreenNew t cfg s = .ok (x, d) s' → x.old = s.outH ∧ Opens k s'.outH s s') ∧
    (∀ e s', winScreenNew t cfg s = .err e s' →
      Trade k k s s' ∨ ∃ h, Leaks t.inH s.outH k h s s') := by
  -- the body, before the terminal is dropped
  have body : ∀ r, (do
      let size ← winSize
      let old ← winEnterScreen
      let state ← winPrepare t cfg
      pure ((⟨state, old⟩ : WScreen), SData.new size) : WM (WScreen × SData)) s = r →
      (∀ y s', r = .ok y s' → y.1.old = s.outH ∧ Opens k s'.outH s s') ∧
      (∀ e s', r = .err e s' →
        (s'.outH = s.outH ∧ Trade k k s s') ∨
        (∃ h, (s'.outH = s.outH ∨ s'.outH = h) ∧ Leaks t.inH s.outH k h s s')) := by
    rintro r rfl
    rw [sm_bind]
    have hsz := uses_size (a := s.outH) (b := s.outH) s rfl
    cases h1 : winSize s with
    | stop w => exact ⟨fun _ _ e => by (cases e), fun _ _ e => by (cases e)⟩
    | err x s1 =>
      refine ⟨fun _ _ e => by (cases e), fun _ _ e => ?_⟩
      cases e
      have := hsz.2 _ _ h1
      exact Or.inl ⟨this.1, Plainly.trade this (Or.inl ho) (Or.inl ho)⟩
    | ok z s1 =>
      have p1 := hsz.1 _ _ h1
      have t1 : Trade k k s s1 := Plainly.trade p1 (Or.inl ho) (Or.inl ho)
      have o1 : s1.outH = s.outH := p1.1
      dsimp only
      rw [sm_bind]
      have he := enter_cases (inH := t.inH) (k := k) s1 (by rw [o1]; exact ho)
      rw [o1] at he
      cases h2 : winEnterScreen s1 with
      | stop w => exact ⟨fun _ _ e => by (cases e), fun _ _ e => by (cases e)⟩
      | err x s2 =>
        refine ⟨fun _ _ e => by (cases e), fun _ _ e => ?_⟩
        cases e
        rcases he.2 _ _ h2 with ⟨a1, a2⟩ | ⟨h, a1, a2⟩
        · exact Or.inl ⟨a1, t1.trans a2⟩
        · exact Or.inr ⟨h, a1, t1.leaks a2⟩
      | ok old s2 =>
        obtain ⟨b1, b2⟩ := he.1 _ _ h2
        have op2 := t1.opens b2
        dsimp only
        rw [sm_bind]
        have hu := uses_prepare (b := s2.outH) t cfg
        cases h3 : winPrepare t cfg s2 with
        | stop w => exact ⟨fun _ _ e => by (cases e), fun _ _ e => by (cases e)⟩
        | err x s3 =>
          refine ⟨fun _ _ e => by (cases e), fun _ _ e => ?_⟩
          cases e
          obtain ⟨o3, l3⟩ := open_fail op2 hu (blames_prepare t cfg s.outH s2.outH) rfl h3 (Or.inl hi)
            (Or.inr List.mem_cons_self)
          exact Or.inr ⟨s2.outH, Or.inr o3, l3⟩
        | ok p s3 =>
          refine ⟨fun _ _ e => ?_, fun _ _ e => by (cases e)⟩
          cases e
          have p3 := (hu s2 rfl).1 _ _ h3
          refine ⟨b1, ?_⟩
          rw [p3.1]
          exact op2.trade (Plainly.trade p3 (Or.inl hi) (Or.inr List.mem_cons_self))
  unfold winScreenNew SM.onErr
  cases hb : (do
      let size ← winSize
      let old ← winEnterScreen
      let state ← winPrepare t cfg
      pure ((⟨state, old⟩ : WScreen), SData.new size) : WM (WScreen × SData)) s with
  | stop w => exact ⟨fun _ _ _ e => by (cases e), fun _ _ e => by (cases e)⟩
  | ok y s1 =>
    refine ⟨fun x d s' e => ?_, fun _ _ e => by (cases e)⟩
    cases e
    exact (body _ hb).1 _ _ rfl
  | err y s1 =>
    have h1 := (body _ hb).2 _ _ rfl
    -- the terminal is dropped
    have fin : ∀ s2, (∃ o, s1.outH = o ∧ Plainly t.inH o s1 s2) →
        Trade k k s s2 ∨ ∃ h, Leaks t.inH s.outH k h s s2 := by
      rintro s2 ⟨o, ho1, p2⟩
      rcases h1 with ⟨a1, a2⟩ | ⟨h, a1, a2⟩
      · left
        refine a2.trans (p2.trade (Or.inl hi) (Or.inl ?_))
        rw [← ho1, a1]; exact ho
      · right
        refine ⟨h, a2.trade (p2.trade (Or.inl hi) ?_)⟩
        rcases a1 with a1 | a1
        · left; rw [← ho1, a1]; exact ho
        · right; rw [← ho1, a1]; exact List.mem_cons_self
    have hd := uses_termDrop (a := t.inH) (b := s1.outH) t s1 rfl
    dsimp only
    cases h2 : winTermDrop t s1 with
    | stop w => exact ⟨fun _ _ _ e => by (cases e), fun _ _ e => by (cases e)⟩
    | ok z s2 =>
      refine ⟨fun _ _ _ e => by (cases e), fun _ _ e => ?_⟩
      cases e
      exact fin _ ⟨_, rfl, hd.1 _ _ h2⟩
    | err z s2 =>
      refine ⟨fun _ _ _ e => by (cases e), fun _ _ e => ?_⟩
      cases e
      exact fin _ ⟨_, rfl, hd.2 _ _ h2⟩

theorem termEnd_plain {t : WTerm} {s s' : WinSt} (h : termEnd t s = some s') :
    Plainly t.inH s.outH s s' := by
  unfold termEnd at h
  have hd := uses_termDrop (a := t.inH) (b := s.outH) t s rfl
  cases h2 : winTermDrop t s with
  | stop w => rw [h2] at h; cases h
  | ok z s2 => rw [h2] at h; cases h; exact hd.1 _ _ h2
  | err z s2 => rw [h2] at h; cases h; exact hd.2 _ _ h2

/-- Leaving a screen, from a state where it is open, before the terminal is dropped. -/
theorem leave_cases {t : WTerm} {x : WScreen} {k : Handles} {s0 s : WinSt}
    (hi : t.inH ∈ k.lent) (ho : x.old ∈ k.lent) (hop : Opens k s.outH s0 s) :
    ∀ r, (winRestore t x.state >>= fun _ => winExitScreen x.old : WM Unit) s = r → ∀ s',
      (r = .ok () s' → s'.outH = x.old ∧ Trade k k s0 s') ∧
      (∀ e, r = .err e s' →
        (s'.outH = x.old ∨ s'.outH = s.outH) ∧ Leaks t.inH x.old k s.outH s0 s') := by
  rintro r rfl s'
  rw [sm_bind]
  have hu := uses_restore (b := s.outH) t x.state
  cases h1 : winRestore t x.state s with
  | stop w => exact ⟨fun e => by (cases e), fun _ e => by (cases e)⟩
  | err y s1 =>
    refine ⟨fun e => by (cases e), fun _ e => ?_⟩
    cases e
    obtain ⟨o1, l1⟩ := open_fail hop hu (blames_restore t x.state x.old s.outH) rfl h1 (Or.inl hi)
      (Or.inr List.mem_cons_self)
    exact ⟨Or.inr o1, l1⟩
  | ok y s1 =>
    have p1 := (hu s rfl).1 _ _ h1
    have op1 : Opens k s.outH s0 s1 := hop.trade (Plainly.trade p1 (Or.inl hi) (Or.inr List.mem_cons_self))
    dsimp only
    unfold winExitScreen
    rw [sm_bind]
    have hac := boolCall_cases (c := .setActive x.old) 0 0 s1
    have st : ∀ a, Handles.stepL { k with own := s.outH :: k.own } (.call (.setActive x.old) a) =
        some { k with own := s.outH :: k.own } := fun a => if_pos (Or.inl ho)
    cases h2 : boolCall (.setActive x.old) s1 with
    | stop w => exact ⟨fun e => by (cases e), fun _ e => by (cases e)⟩
    | err z s2 =>
      refine ⟨fun e => by (cases e), fun _ e => ?_⟩
      cases e
      obtain ⟨o2, D, e2, q2⟩ := hac.2 _ _ h2
      refine ⟨Or.inr (o2.trans p1.1), op1.leaks (D := D ++ [.call (.setActive x.old) .fail])
        (c := .setActive x.old) (by rw [e2, List.append_assoc]) ?_ rfl (by simp)⟩
      rw [handles_append, quiet_follow q2]
      simp only [Option.bind_some, Handles.followL, st]
    | ok z s2 =>
      obtain ⟨o2, D, e2, q2⟩ := hac.1 _ _ h2
      have op2 : Opens k s.outH s0 s2 := op1.trade (call_trade e2 q2 (st _))
      dsimp only
      show (boolCall (.close s2.outH) { s2 with outH := x.old } = _ → _) ∧
        (∀ e, boolCall (.close s2.outH) { s2 with outH := x.old } = _ → _)
      rw [o2.trans p1.1]
      have op3 : Opens k s.outH s0 { s2 with outH := x.old } := op2
      have hcl := boolCall_cases (c := .close s.outH) 0 0 { s2 with outH := x.old }
      constructor
      · intro e
        obtain ⟨o3, D3, e3, q3⟩ := hcl.1 _ _ e
        refine ⟨o3, op3.close (call_trade e3 q3 ?_)⟩
        simp [Handles.stepL]
      · intro y e
        obtain ⟨o3, D3, e3, q3⟩ := hcl.2 _ _ e
        refine ⟨Or.inl o3, op3.leaks (D := D3 ++ [.call (.close s.outH) .fail]) (c := .close s.outH)
          (by rw [e3, List.append_assoc]) ?_ rfl (by simp)⟩
        rw [handles_append, quiet_follow q3]
        simp [Handles.followL, Handles.stepL]

theorem screenEnd_cases {t : WTerm} {x : WScreen} {k : Handles} {s0 s s' : WinSt}
    (hi : t.inH ∈ k.lent) (ho : x.old ∈ k.lent) (hop : Opens k s.outH s0 s)
    (h : screenEnd t x s = some s') :
    Trade k k s0 s' ∨ Leaks t.inH x.old k s.outH s0 s' := by
  have hl := leave_cases (t := t) (x := x) hi ho hop
  unfold screenEnd winScreenDrop at h
  rw [sm_bind] at h
  unfold SM.ignore at h
  cases h1 : (winRestore t x.state >>= fun _ => winExitScreen x.old : WM Unit) s with
  | stop w => rw [h1] at h; cases h
  | ok y s1 =>
    rw [h1] at h
    obtain ⟨o1, t1⟩ := (hl _ h1 s1).1 rfl
    have p2 : Plainly t.inH s1.outH s1 s' := termEnd_plain h
    exact Or.inl (t1.trans (p2.trade (Or.inl hi) (Or.inl (by rw [o1]; exact ho))))
  | err y s1 =>
    rw [h1] at h
    obtain ⟨o1, l1⟩ := (hl _ h1 s1).2 _ rfl
    have p2 : Plainly t.inH s1.outH s1 s' := termEnd_plain h
    refine Or.inr (l1.trade (p2.trade (Or.inl hi) ?_))
    rcases o1 with o1 | o1
    · left; rw [o1]; exact ho
    · right; rw [o1]; exact List.mem_cons_self

/-! ## The beginning -/

/-- The code uses the handle `a` only. -/
def Alone (a : Nat) {α : Type} (m : WM α) : Prop :=
  ∀ s, (∀ x s', m s = .ok x s' → ∃ D, s'.log = s.log ++ D ∧ ∀ e ∈ D, PlainEv a a e) ∧
    (∀ x s', m s = .err x s' → ∃ D, s'.log = s.log ++ D ∧ ∀ e ∈ D, PlainEv a a e)

theorem Alone.bind {a : Nat} {α β : Type} {m : WM α} {f : α → WM β} (h : Alone a m)
    (hf : ∀ x, Alone a (f x)) : Alone a (m >>= f) := by
  intro s
  simp only [sm_bind]
  constructor
  · intro y s' e
    cases hm : m s with
    | ok x s1 => rw [hm] at e; exact uses_trans ((h s).1 x s1 hm) ((hf x s1).1 y s' e)
    | err e' s1 => rw [hm] at e; cases e
    | stop w => rw [hm] at e; cases e
  · intro y s' e
    cases hm : m s with
    | ok x s1 => rw [hm] at e; exact uses_trans ((h s).1 x s1 hm) ((hf x s1).2 y s' e)
    | err e' s1 => rw [hm] at e; cases e; exact (h s).2 _ _ hm
    | stop w => rw [hm] at e; cases e

theorem alone_still {a : Nat} {α : Type} {m : WM α} (h1 : ∀ s x s', m s = .ok x s' → s'.log = s.log)
    (h2 : ∀ s x s', m s = .err x s' → s'.log = s.log) : Alone a m :=
  fun s => ⟨fun x s' e => ⟨[], by simp [h1 s x s' e], by simp⟩,
    fun x s' e => ⟨[], by simp [h2 s x s' e], by simp⟩⟩

theorem alone_pure {a : Nat} {α : Type} (x : α) : Alone a (pure x : WM α) :=
  alone_still (fun _ _ _ e => by cases e; rfl) fun _ _ _ e => by cases e

theorem alone_throw {a : Nat} {α : Type} (e : IoErr) : Alone a (SM.throw e : WM α) :=
  alone_still (fun _ _ _ e => by cases e) fun _ _ _ e => by cases e; rfl

theorem alone_halt {a : Nat} {α : Type} (w : Stop) : Alone a (SM.halt w : WM α) :=
  alone_still (fun _ _ _ e => by cases e) fun _ _ _ e => by cases e

theorem alone_call {a : Nat} {c : ConCall} (hc : opensOrCloses c = false) (hh : handleUsed c = some a) :
    Alone a (conCall c) := by
  refine fun s => ⟨fun x s' h => ?_, fun x s' h => absurd h conCall_no_err⟩
  obtain ⟨-, D, h2, h3⟩ := conCall_inv a a h
  refine ⟨D ++ [.call c x], by rw [h2]; simp, fun e he => ?_⟩
  rcases List.mem_append.1 he with h | h
  · exact (h3 e h).1
  · rw [List.mem_singleton] at h; subst h
    exact .call c x hc fun g e => by rw [hh] at e; cases e; exact Or.inl rfl

theorem alone_info (a : Nat) : Alone a (consoleInfo a) :=
  Alone.bind (alone_call rfl rfl) fun x => by
    cases x <;> first | exact alone_pure _ | exact alone_throw _ | exact alone_halt _

theorem alone_output (a : Nat) : Alone a (prepareOutput a) := by
  refine Alone.bind (Alone.bind (alone_call rfl rfl) fun x => ?_) fun m => Alone.bind ?_ fun _ => alone_pure _
  · cases x <;> first | exact alone_pure _ | exact alone_throw _ | exact alone_halt _
  · exact Alone.bind (alone_call rfl rfl) fun x => by
      cases x <;> first | exact alone_pure _ | exact alone_throw _ | exact alone_halt _

theorem new_cases (out : Nat) (s : WinSt) :
    (∀ t s', winNew out s = .ok t s' →
      ∃ D, s'.log = s.log ++ D ∧ Handles.nothing.followL D = some ⟨[s'.outH, t.inH], []⟩ ∧
        .call (.getStd 0) (.handle t.inH) ∈ D ∧ .call (.getStd out) (.handle s'.outH) ∈ D) ∧
    (∀ e s', winNew out s = .err e s' →
      ∃ D k, s'.log = s.log ++ D ∧ Handles.nothing.followL D = some k ∧ k.own = []) := by
  unfold winNew
  rw [sm_bind]
  have hh := handleCall_cases (c := .getStd 0) s
  cases h1 : handleCall (.getStd 0) s with
  | stop w => exact ⟨fun _ _ e => by (cases e), fun _ _ e => by (cases e)⟩
  | err x s1 =>
    refine ⟨fun _ _ e => by (cases e), fun _ _ e => ?_⟩
    cases e
    obtain ⟨-, D, e1, q1⟩ := hh.2 _ _ h1
    obtain ⟨D', e', f'⟩ := call_trade (k := Handles.nothing) (k' := Handles.nothing) e1 q1 rfl
    exact ⟨D', _, e', f', rfl⟩
  | ok inH s1 =>
    obtain ⟨hz, -, D1, e1, q1⟩ := hh.1 _ _ h1
    dsimp only
    rw [sm_bind]
    have hh2 := handleCall_cases (c := .getStd out) s1
    have f1 : Handles.nothing.followL (D1 ++ [.call (.getStd 0) (.handle inH)]) = some ⟨[inH], []⟩ := by
      rw [handles_append, quiet_follow q1]
      simp [Handles.followL, Handles.stepL, hz, Handles.nothing]
    have t1 : Trade .nothing ⟨[inH], []⟩ s s1 := ⟨_, by rw [e1, List.append_assoc], f1⟩
    cases h2 : handleCall (.getStd out) s1 with
    | stop w => exact ⟨fun _ _ e => by (cases e), fun _ _ e => by (cases e)⟩
    | err x s2 =>
      refine ⟨fun _ _ e => by (cases e), fun _ _ e => ?_⟩
      cases e
      obtain ⟨-, D, e2, q2⟩ := hh2.2 _ _ h2
      obtain ⟨D', e', f'⟩ := t1.trans (call_trade (k' := ⟨[inH], []⟩) e2 q2 rfl)
      exact ⟨D', _, e', f', rfl⟩
    | ok o s2 =>
      obtain ⟨oz, -, D2, e2, q2⟩ := hh2.1 _ _ h2
      have f2 : Handles.followL ⟨[inH], []⟩ (D2 ++ [.call (.getStd out) (.handle o)]) =
          some ⟨[o, inH], []⟩ := by
        rw [handles_append, quiet_follow q2]
        simp [Handles.followL, Handles.stepL, oz]
      have base : ∀ (s3 : WinSt) (D : List WEv), s3.log = s2.log ++ D → (∀ e ∈ D, PlainEv o o e) →
          ∃ E, s3.log = s.log ++ E ∧ Handles.nothing.followL E = some ⟨[o, inH], []⟩ ∧
            .call (.getStd 0) (.handle inH) ∈ E ∧ .call (.getStd out) (.handle o) ∈ E := by
        intro s3 D e3 p3
        refine ⟨(D1 ++ [.call (.getStd 0) (.handle inH)]) ++
          ((D2 ++ [.call (.getStd out) (.handle o)]) ++ D), by rw [e3, e2, e1]; simp, ?_, by simp, by simp⟩
        rw [handles_append, f1, Option.bind_some, handles_append, f2]
        exact plain_follow (Or.inl List.mem_cons_self) (Or.inl List.mem_cons_self) p3
      dsimp only
      rw [sm_bind]
      have hi := alone_info o s2
      cases h3 : consoleInfo o s2 with
      | stop w => exact ⟨fun _ _ e => by (cases e), fun _ _ e => by (cases e)⟩
      | err x s3 =>
        refine ⟨fun _ _ e => by (cases e), fun _ _ e => ?_⟩
        cases e
        obtain ⟨D, e3, p3⟩ := hi.2 _ _ h3
        obtain ⟨E, a1, a2, -⟩ := base _ D e3 p3
        exact ⟨E, _, a1, a2, rfl⟩
      | ok i s3 =>
        have d3 := hi.1 _ _ h3
        dsimp only
        rw [sm_bind]
        have ho := alone_output o s3
        cases h4 : prepareOutput o s3 with
        | stop w => exact ⟨fun _ _ e => by (cases e), fun _ _ e => by (cases e)⟩
        | err x s4 =>
          refine ⟨fun _ _ e => by (cases e), fun _ _ e => ?_⟩
          cases e
          obtain ⟨D, e4, p4⟩ := uses_trans d3 (ho.2 _ _ h4)
          obtain ⟨E, a1, a2, -⟩ := base _ D e4 p4
          exact ⟨E, _, a1, a2, rfl⟩
        | ok m s4 =>
          refine ⟨fun _ _ e => ?_, fun _ _ e => by (cases e)⟩
          cases e
          obtain ⟨D, e4, p4⟩ := uses_trans d3 (ho.1 _ _ h4)
          exact base _ D e4 p4

/-! ## The whole life -/

theorem screenLife_cases {u : UEnv} {t : WTerm} {cfg : PrepareConfig} {uses : List ScrUse} {k : Handles}
    {s s' : WinSt} (hi : t.inH ∈ k.lent) (ho : s.outH ∈ k.lent)
    (h : screenLife u t cfg uses s = some s') :
    Trade k k s s' ∨ ∃ h, Leaks t.inH s.outH k h s s' := by
  unfold screenLife at h
  have hn := screenNew_cases (cfg := cfg) s hi ho
  cases h1 : winScreenNew t cfg s with
  | stop w => rw [h1] at h; cases h
  | err e s1 => rw [h1] at h; cases h; exact hn.2 _ _ h1
  | ok y s1 =>
    obtain ⟨x, d⟩ := y
    rw [h1] at h
    dsimp only at h
    obtain ⟨hx, hop⟩ := hn.1 _ _ _ h1
    obtain ⟨s2, h2, h3⟩ := Option.bind_eq_some_iff.1 h
    have p2 : Plainly t.inH s1.outH s1 s2.w := scrUses_plain uses rfl h2
    have op2 : Opens k s2.w.outH s s2.w := by
      rw [p2.1]
      exact hop.trade (p2.trade (Or.inl hi) (Or.inr List.mem_cons_self))
    have := screenEnd_cases hi (by rw [hx]; exact ho) op2 h3
    rw [hx] at this
    exact this.imp id fun g => ⟨_, g⟩

theorem life_cases {u : UEnv} {out : Nat} {ops : List SigOp} {scr : Option (PrepareConfig × List ScrUse)}
    {s s' : WinSt} (h : wholeLife u out ops scr s = some s') :
    ∃ D k, s'.log = s.log ++ D ∧ Handles.nothing.followL D = some k ∧
      (k.own = [] ∨ ∃ inH old h A B c, k.own = [h] ∧ D = A ++ .call .create (.handle h) :: B ∧
        .call (.getStd 0) (.handle inH) ∈ A ∧ .call (.getStd out) (.handle old) ∈ A ∧
        Needed inH old h c ∧ .call c .fail ∈ B) := by
  unfold wholeLife at h
  have hn := new_cases out s
  cases h1 : winNew out s with
  | stop w => rw [h1] at h; cases h
  | err e s1 =>
    rw [h1] at h; cases h
    obtain ⟨D, k, a1, a2, a3⟩ := hn.2 _ _ h1
    exact ⟨D, k, a1, a2, Or.inl a3⟩
  | ok t s1 =>
    rw [h1] at h
    dsimp only at h
    obtain ⟨D1, e1, f1, m1, m2⟩ := hn.1 _ _ h1
    obtain ⟨s2, h2, h3⟩ := Option.bind_eq_some_iff.1 h
    have hi : t.inH ∈ (⟨[s1.outH, t.inH], []⟩ : Handles).lent := by simp
    have ho : s1.outH ∈ (⟨[s1.outH, t.inH], []⟩ : Handles).lent := by simp
    have p2 : Plainly t.inH s1.outH s1 s2 := termUses_plain ops rfl h2
    have t2 : Trade ⟨[s1.outH, t.inH], []⟩ ⟨[s1.outH, t.inH], []⟩ s1 s2 :=
      p2.trade (Or.inl hi) (Or.inl ho)
    have o2 : s2.outH = s1.outH := p2.1
    have fin : Trade ⟨[s1.outH, t.inH], []⟩ ⟨[s1.outH, t.inH], []⟩ s1 s' ∨
        ∃ h, Leaks t.inH s1.outH ⟨[s1.outH, t.inH], []⟩ h s1 s' := by
      cases scr with
      | none =>
        have p3 := termEnd_plain h3
        rw [o2] at p3
        exact Or.inl (t2.trans (p3.trade (Or.inl hi) (Or.inl ho)))
      | some cu =>
        obtain ⟨cfg, uses⟩ := cu
        have := screenLife_cases (k := ⟨[s1.outH, t.inH], []⟩) hi (by rw [o2]; exact ho) h3
        rw [o2] at this
        rcases this with g | ⟨h, g⟩
        · exact Or.inl (t2.trans g)
        · exact Or.inr ⟨h, t2.leaks g⟩
    rcases fin with ⟨D, e2, f2⟩ | ⟨h, A, B, c, e2, f2, hc, hm⟩
    · refine ⟨D1 ++ D, ⟨[s1.outH, t.inH], []⟩, by rw [e2, e1, List.append_assoc], ?_, Or.inl rfl⟩
      rw [handles_append, f1]
      exact f2
    · refine ⟨D1 ++ (A ++ .call .create (.handle h) :: B), ⟨[s1.outH, t.inH], [h]⟩,
        by rw [e2, e1, List.append_assoc], ?_, Or.inr ⟨t.inH, s1.outH, h, D1 ++ A, B, c, rfl, by simp,
        List.mem_append_left _ m1, List.mem_append_left _ m2, hc, hm⟩⟩
      rw [handles_append, f1]
      exact f2

end Mortal
