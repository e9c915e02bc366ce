import Verif.Props.WinDrop
import Verif.Props.WinScreen

/-!
# C76: exactly when a screen that could not be opened leaves its buffer open
-/

namespace Mortal
open Spec

/-- A call that makes, shows and closes nothing. -/
def Aside (c : ConCall) : Prop := c ≠ .create ∧ ∀ h, c ≠ .close h ∧ c ≠ .setActive h

/-- These events were added, all of them beside the point. -/
def Beside (s s' : WinSt) : Prop := ∃ D, s'.log = s.log ++ D ∧ ∀ c a, WEv.call c a ∈ D → Aside c

theorem Beside.refl (s : WinSt) : Beside s s := ⟨[], (List.append_nil _).symm, fun _ _ h => by cases h⟩

theorem Beside.trans {a b c : WinSt} (h : Beside a b) (h' : Beside b c) : Beside a c := by
  obtain ⟨D, e, f⟩ := h
  obtain ⟨D', e', f'⟩ := h'
  exact ⟨D ++ D', by rw [e', e, List.append_assoc], fun x y hm => (List.mem_append.mp hm).elim (f x y) (f' x y)⟩

/-- Code that makes only such calls. -/
def Spares {α : Type} (m : WM α) : Prop :=
  ∀ s s', ((∃ x, m s = .ok x s') ∨ ∃ e, m s = .err e s') → Beside s s'

theorem Spares.bind {α β : Type} {m : WM α} {f : α → WM β} (h : Spares m) (hf : ∀ x, Spares (f x)) :
    Spares (m >>= f) := by
  intro s s' e
  simp only [sm_bind] at e
  cases hm : m s with
  | stop w => rw [hm] at e; rcases e with ⟨_, e⟩ | ⟨_, e⟩ <;> cases e
  | err x s1 =>
    rw [hm] at e
    rcases e with ⟨_, e⟩ | ⟨_, e⟩
    · cases e
    · cases e
      exact h _ _ (Or.inr ⟨_, hm⟩)
  | ok x s1 =>
    rw [hm] at e
    exact (h _ _ (Or.inl ⟨_, hm⟩)).trans (hf x s1 s' e)

theorem Spares.pure {α : Type} (x : α) : Spares (pure x : WM α) := by
  rintro s s' (⟨_, e⟩ | ⟨_, e⟩) <;> cases e
  exact .refl _

theorem spares_throw {α : Type} (x : IoErr) : Spares (SM.throw x : WM α) := by
  rintro s s' (⟨_, e⟩ | ⟨_, e⟩) <;> cases e
  exact .refl _

theorem spares_halt {α : Type} (x : Stop) : Spares (SM.halt x : WM α) := by
  rintro s s' (⟨_, e⟩ | ⟨_, e⟩) <;> cases e

theorem spares_get : Spares (SM.get : WM WinSt) := by
  rintro s s' (⟨_, e⟩ | ⟨_, e⟩) <;> cases e
  exact .refl _

theorem spares_modify {f : WinSt → WinSt} (h : ∀ s, (f s).log = s.log) : Spares (SM.modify f) := by
  rintro s s' (⟨_, e⟩ | ⟨_, e⟩) <;> cases e
  exact ⟨[], by rw [h, List.append_nil], fun _ _ h => by cases h⟩

theorem spares_ofPanics {α : Type} (x : Panics α) : Spares (SM.ofPanics x : WM α) := by
  cases x <;> rintro s s' (⟨_, e⟩ | ⟨_, e⟩) <;> cases e
  exact .refl _

theorem spares_conCall {c : ConCall} (hc : Aside c) : Spares (conCall c) := by
  rintro s s' (⟨x, e⟩ | ⟨_, e⟩)
  · obtain ⟨-, D, e1, e2⟩ := conCall_inv 0 0 e
    refine ⟨D ++ [.call c x], by rw [e1, List.append_assoc], fun c' a hm => ?_⟩
    rcases List.mem_append.mp hm with hm | hm
    · exact ((e2 _ hm).2 c' a rfl).elim
    · cases List.mem_singleton.mp hm
      exact hc
  · exact (conCall_no_err e).elim

theorem spares_when {p : Prop} [Decidable p] {m : WM Unit} (h : Spares m) : Spares (SM.when p m) := by
  unfold SM.when
  split
  · exact h
  · exact .pure ()

theorem spares_bool {c : ConCall} (hc : Aside c) : Spares (boolCall c) := by
  unfold boolCall
  refine .bind (spares_conCall hc) fun a => ?_
  cases a <;> first | exact .pure _ | exact spares_throw _ | exact spares_halt _

theorem spares_mode (h : Nat) : Spares (consoleMode h) := by
  unfold consoleMode
  refine .bind (spares_conCall ⟨nofun, fun _ => ⟨nofun, nofun⟩⟩) fun a => ?_
  cases a <;> first | exact .pure _ | exact spares_throw _ | exact spares_halt _

theorem spares_info (h : Nat) : Spares (consoleInfo h) := by
  unfold consoleInfo
  refine .bind (spares_conCall ⟨nofun, fun _ => ⟨nofun, nofun⟩⟩) fun a => ?_
  cases a <;> first | exact .pure _ | exact spares_throw _ | exact spares_halt _

theorem spares_size : Spares winSize := by
  unfold winSize
  refine .bind spares_get fun s => .bind (spares_info _) fun i => ?_
  exact .pure _

theorem spares_prepare (t : WTerm) (cfg : PrepareConfig) : Spares (winPrepare t cfg) := by
  unfold winPrepare
  refine .bind (spares_mode _) fun m => .bind (spares_when (spares_modify fun _ => rfl)) fun _ =>
    .bind (spares_bool ⟨nofun, fun _ => ⟨nofun, nofun⟩⟩) fun _ => ?_
  split
  · refine .bind ?_ fun _ => .bind (spares_bool ⟨nofun, fun _ => ⟨nofun, nofun⟩⟩) fun _ => .pure _
    unfold catchSignals
    exact .bind (spares_conCall ⟨nofun, fun _ => ⟨nofun, nofun⟩⟩) fun _ => spares_modify fun _ => rfl
  · exact .pure _

theorem spares_termDrop (t : WTerm) : Spares (winTermDrop t) := by
  intro s s' h
  have hi : Spares (do winCursorMode .normal; setConsoleMode (← SM.get).outH t.oldOut) := by
    refine .bind ?_ fun _ => .bind spares_get fun _ => spares_bool ⟨nofun, fun _ => ⟨nofun, nofun⟩⟩
    exact .bind spares_get fun _ => spares_bool ⟨nofun, fun _ => ⟨nofun, nofun⟩⟩
  unfold winTermDrop SM.ignore at h
  cases hm : (do winCursorMode .normal; setConsoleMode (← SM.get).outH t.oldOut : WM Unit) s with
  | stop w => rw [hm] at h; rcases h with ⟨_, e⟩ | ⟨_, e⟩ <;> cases e
  | err x s1 =>
    rw [hm] at h
    rcases h with ⟨_, e⟩ | ⟨_, e⟩ <;> cases e
    exact hi _ _ (Or.inr ⟨_, hm⟩)
  | ok x s1 =>
    rw [hm] at h
    rcases h with ⟨_, e⟩ | ⟨_, e⟩ <;> cases e
    exact hi _ _ (Or.inl ⟨_, hm⟩)

theorem handling_append (a b : List WEv) : handling (a ++ b) = handling a ++ handling b := by
  unfold handling
  rw [callsIn_append, List.filter_append]

/-- From `s` to `s'` buffers were made, shown and closed by these calls. -/
def Handled (l : List (ConCall × Ans)) (s s' : WinSt) : Prop := ∃ D, s'.log = s.log ++ D ∧ handling D = l

theorem Handled.trans {l l' : List (ConCall × Ans)} {a b c : WinSt} (h : Handled l a b) (h' : Handled l' b c) :
    Handled (l ++ l') a c := by
  obtain ⟨D, e, rfl⟩ := h
  obtain ⟨D', e', rfl⟩ := h'
  exact ⟨D ++ D', by rw [e', e, List.append_assoc], handling_append _ _⟩

theorem Beside.handled {s s' : WinSt} (h : Beside s s') : Handled [] s s' := by
  obtain ⟨D, e, f⟩ := h
  refine ⟨D, e, List.filter_eq_nil_iff.mpr ?_⟩
  rintro ⟨c, a⟩ hm hh
  have := f c a ((mem_callsIn D).mp hm)
  cases c <;> first | exact this.1 rfl | exact (this.2 _).1 rfl | exact (this.2 _).2 rfl | cases hh

theorem handled_bool {c : ConCall} (hc : handles c = true) {s s' : WinSt} :
    (∀ x, boolCall c s = .ok x s' → Handled [(c, .ok)] s s' ∧ s'.outH = s.outH) ∧
    (∀ x, boolCall c s = .err x s' → Handled [(c, .fail)] s s' ∧ s'.outH = s.outH) := by
  have h := tries_bool c s
  constructor
  · intro x e
    obtain ⟨h0, D, h1, h2⟩ := h.1 _ _ e
    exact ⟨⟨D, h1, by unfold handling; rw [h2]; simp [hc]⟩, h0⟩
  · intro x e
    obtain ⟨h0, D, A, c', B, h1, h2, h3⟩ := h.2 _ _ e
    obtain ⟨rfl, rfl⟩ : A = [] ∧ c' = c := by
      cases A with
      | nil => cases h2; exact ⟨rfl, rfl⟩
      | cons a A => cases A <;> cases h2
    exact ⟨⟨D, h1, by unfold handling; rw [h3]; simp [hc]⟩, h0⟩

/-- What `setup_screen` does to buffers. -/
theorem handled_setup (h : Nat) (z : Size) (s s' : WinSt) :
    (∀ x, setupScreen h z s = .ok x s' → Handled [(.setActive h, .ok)] s s') ∧
    (∀ x, setupScreen h z s = .err x s' → Handled [] s s' ∨ Handled [(.setActive h, .fail)] s s') := by
  have hb : Spares (boolCall (.setBufSize h (sizeToCoord z))) := spares_bool ⟨nofun, fun _ => ⟨nofun, nofun⟩⟩
  unfold setupScreen
  simp only [sm_bind]
  cases h1 : boolCall (.setBufSize h (sizeToCoord z)) s with
  | stop w => exact ⟨fun _ e => by (cases e), fun _ e => by (cases e)⟩
  | err x s1 =>
    refine ⟨fun _ e => by (cases e), fun _ e => ?_⟩
    cases e
    exact Or.inl (hb _ _ (Or.inr ⟨_, h1⟩)).handled
  | ok x s1 =>
    have b1 := (hb _ _ (Or.inl ⟨_, h1⟩)).handled
    exact ⟨fun _ e => b1.trans ((handled_bool rfl).1 _ e).1, fun _ e => Or.inr (b1.trans ((handled_bool rfl).2 _ e).1)⟩

theorem handled_enter (s s' : WinSt) :
    (∀ x, winEnterScreen s = .ok x s' →
      s'.outH ≠ 0 ∧ Handled [(.create, .handle s'.outH), (.setActive s'.outH, .ok)] s s') ∧
    (∀ x, winEnterScreen s = .err x s' → ∃ l, NotOpened l ∧ Handled l s s') := by
  unfold winEnterScreen
  rw [sm_bind]
  cases h1 : winSize s with
  | stop w => exact ⟨fun _ e => by (cases e), fun _ e => by (cases e)⟩
  | err x s1 =>
    refine ⟨fun _ e => by (cases e), fun _ e => ?_⟩
    cases e
    exact ⟨_, .early, (spares_size _ _ (Or.inr ⟨_, h1⟩)).handled⟩
  | ok z s1 =>
    have b1 := (spares_size _ _ (Or.inl ⟨_, h1⟩)).handled
    dsimp only
    rw [sm_bind]
    have hh := handleCall_cases (c := .create) s1
    have hq : ∀ (D : List WEv) (a : Ans), (∀ e ∈ D, PlainEv 0 0 e ∧ ∀ c x, e ≠ .call c x) →
        handling (D ++ [.call .create a]) = [(.create, a)] := by
      intro D a h
      unfold handling
      rw [callsIn_append, callsIn_none fun e he => (h e he).2]
      rfl
    cases h2 : handleCall .create s1 with
    | stop w => exact ⟨fun _ e => by (cases e), fun _ e => by (cases e)⟩
    | err x s2 =>
      refine ⟨fun _ e => by (cases e), fun _ e => ?_⟩
      cases e
      obtain ⟨-, D, e1, e2⟩ := hh.2 _ _ h2
      exact ⟨_, .unmade, b1.trans ⟨D ++ [_], by rw [e1, List.append_assoc], hq D _ e2⟩⟩
    | ok b s2 =>
      obtain ⟨hb, -, D, e1, e2⟩ := hh.1 _ _ h2
      have b2 : Handled [(.create, .handle b)] s s2 := b1.trans ⟨D ++ [_], by rw [e1, List.append_assoc], hq D _ e2⟩
      dsimp only
      rw [sm_bind]
      cases h3 : setupScreen b z s2 with
      | stop w =>
        unfold SM.onErr
        rw [h3]
        exact ⟨fun _ e => by (cases e), fun _ e => by (cases e)⟩
      | err x s3 =>
        have b3 := (handled_setup b z s2 s3).2 _ h3
        unfold SM.onErr
        rw [h3]
        dsimp only
        cases h4 : boolCall (.close b) s3 with
        | stop w => exact ⟨fun _ e => by (cases e), fun _ e => by (cases e)⟩
        | err x s4 =>
          refine ⟨fun _ e => by (cases e), fun _ e => ?_⟩
          cases e
          have b4 := ((handled_bool rfl).2 _ h4).1
          rcases b3 with b3 | b3
          · exact ⟨_, .unsized b .fail hb (Or.inr rfl), b2.trans (b3.trans b4)⟩
          · exact ⟨_, .unshown b .fail hb (Or.inr rfl), b2.trans (b3.trans b4)⟩
        | ok x s4 =>
          refine ⟨fun _ e => by (cases e), fun _ e => ?_⟩
          cases e
          have b4 := ((handled_bool rfl).1 _ h4).1
          rcases b3 with b3 | b3
          · exact ⟨_, .unsized b .ok hb (Or.inl rfl), b2.trans (b3.trans b4)⟩
          · exact ⟨_, .unshown b .ok hb (Or.inl rfl), b2.trans (b3.trans b4)⟩
      | ok x s3 =>
        have b3 := b2.trans ((handled_setup b z s2 s3).1 _ h3)
        have ho : SM.onErr (setupScreen b z) (boolCall (.close b)) s2 = .ok x s3 := by
          unfold SM.onErr
          rw [h3]
        rw [ho]
        have e0 : ∀ r, (do
            let m ← consoleMode b
            setConsoleMode b (m &&& ~~~(ENABLE_WRAP_AT_EOL_OUTPUT ||| DISABLE_NEWLINE_AUTO_RETURN))
            pure s3.outH : WM Nat) { s3 with outH := b } = r →
            (∀ x, r = .ok x s' → s'.outH = b) ∧ ((∃ x, r = .ok x s') ∨ (∃ e, r = .err e s') →
              Handled [] s3 s') := by
          intro r hr
          have hs : Spares (do
            let m ← consoleMode b
            setConsoleMode b (m &&& ~~~(ENABLE_WRAP_AT_EOL_OUTPUT ||| DISABLE_NEWLINE_AUTO_RETURN))
            pure s3.outH : WM Nat) :=
            .bind (spares_mode _) fun m => .bind (spares_bool ⟨nofun, fun _ => ⟨nofun, nofun⟩⟩) fun _ => .pure _
          have hu : UsesOnly b b (do
            let m ← consoleMode b
            setConsoleMode b (m &&& ~~~(ENABLE_WRAP_AT_EOL_OUTPUT ||| DISABLE_NEWLINE_AUTO_RETURN))
            pure s3.outH : WM Nat) := by
            refine .bind (uses_mode (Or.inl rfl)) fun m => .bind (uses_boolCall rfl ?_) fun _ => .pure _
            intro h e
            cases e
            exact Or.inl rfl
          subst hr
          refine ⟨fun x e => ((hu _ rfl).1 _ _ e).1, fun e => ?_⟩
          obtain ⟨D, d1, d2⟩ := (hs _ _ e).handled
          exact ⟨D, d1, d2⟩
        obtain ⟨f1, f2⟩ := e0 _ rfl
        refine ⟨fun x e => ?_, fun x e => ?_⟩
        · have g1 := f1 x e
          rw [g1]
          exact ⟨hb, b3.trans (f2 (Or.inl ⟨x, e⟩))⟩
        · exact ⟨_, .late b hb, b3.trans (f2 (Or.inr ⟨x, e⟩))⟩

/-- **C76.** When a screen is opened one buffer is made and shown, and nothing is closed. -/
theorem C76_open_calls {t : WTerm} {cfg : PrepareConfig} {r : WScreen × SData} {s s' : WinSt}
    (h : winScreenNew t cfg s = .ok r s') :
    ∃ D, s'.log = s.log ++ D ∧ s'.outH ≠ 0 ∧
      handling D = [(.create, .handle s'.outH), (.setActive s'.outH, .ok)] := by
  obtain ⟨s1, p, h1, h2, h3⟩ : ∃ s1 s2, Handled [] s s1 ∧ (∃ o, winEnterScreen s1 = .ok o s2) ∧
      ∃ st, winPrepare t cfg s2 = .ok st s' := by
    unfold winScreenNew SM.onErr at h
    cases hm : (do
        let size ← winSize
        let old ← winEnterScreen
        let state ← winPrepare t cfg
        pure (⟨state, old⟩, SData.new size) : WM (WScreen × SData)) s with
    | stop w => rw [hm] at h; cases h
    | err x s1 =>
      rw [hm] at h
      dsimp only at h
      cases hd : winTermDrop t s1 <;> rw [hd] at h <;> cases h
    | ok x s1 =>
      rw [hm] at h
      cases h
      obtain ⟨z, a1, k1, k2⟩ := sm_bind_ok hm
      obtain ⟨o, a2, k3, k4⟩ := sm_bind_ok k2
      obtain ⟨st, a3, k5, k6⟩ := sm_bind_ok k4
      cases k6
      exact ⟨a1, a2, (spares_size _ _ (Or.inl ⟨_, k1⟩)).handled, ⟨_, k3⟩, _, k5⟩
  obtain ⟨o, h2⟩ := h2
  obtain ⟨st, h3⟩ := h3
  obtain ⟨g1, g2⟩ := (handled_enter s1 p).1 _ h2
  have g3 := (spares_prepare t cfg _ _ (Or.inl ⟨_, h3⟩)).handled
  have g4 : s'.outH = p.outH := (((uses_prepare (t := t) (b := p.outH) cfg) p rfl).1 _ _ h3).1
  obtain ⟨D, d1, d2⟩ := (h1.trans g2).trans g3
  rw [g4]
  exact ⟨D, d1, g1, d2⟩

/-- **C76.** When a screen cannot be opened, exactly one of these things has been done to screen buffers. -/
theorem C76_unopened_calls {t : WTerm} {cfg : PrepareConfig} {x : IoErr} {s s' : WinSt}
    (h : winScreenNew t cfg s = .err x s') : ∃ D, s'.log = s.log ++ D ∧ NotOpened (handling D) := by
  unfold winScreenNew SM.onErr at h
  cases hm : (do
      let size ← winSize
      let old ← winEnterScreen
      let state ← winPrepare t cfg
      pure (⟨state, old⟩, SData.new size) : WM (WScreen × SData)) s with
  | stop w => rw [hm] at h; cases h
  | ok x s1 => rw [hm] at h; cases h
  | err x s1 =>
    rw [hm] at h
    dsimp only at h
    have hin : ∃ l, NotOpened l ∧ Handled l s s1 := by
      simp only [sm_bind] at hm
      cases h1 : winSize s with
      | stop w => rw [h1] at hm; cases hm
      | err x a1 =>
        rw [h1] at hm
        cases hm
        exact ⟨_, .early, (spares_size _ _ (Or.inr ⟨_, h1⟩)).handled⟩
      | ok z a1 =>
        have b1 := (spares_size _ _ (Or.inl ⟨_, h1⟩)).handled
        rw [h1] at hm
        dsimp only at hm
        cases h2 : winEnterScreen a1 with
        | stop w => rw [h2] at hm; cases hm
        | err x a2 =>
          rw [h2] at hm
          cases hm
          obtain ⟨l, l1, l2⟩ := (handled_enter _ _).2 _ h2
          exact ⟨l, l1, b1.trans l2⟩
        | ok o a2 =>
          rw [h2] at hm
          dsimp only at hm
          obtain ⟨g1, g2⟩ := (handled_enter _ _).1 _ h2
          cases h3 : winPrepare t cfg a2 with
          | stop w => rw [h3] at hm; cases hm
          | ok st a3 => rw [h3] at hm; cases hm
          | err e a3 =>
            rw [h3] at hm
            cases hm
            have g3 := (spares_prepare t cfg _ _ (Or.inr ⟨_, h3⟩)).handled
            exact ⟨_, .late _ g1, (b1.trans g2).trans g3⟩
    obtain ⟨l, l1, l2⟩ := hin
    have hd : ∀ s2, ((∃ y, winTermDrop t s1 = .ok y s2) ∨ ∃ e, winTermDrop t s1 = .err e s2) →
        ∃ D, s2.log = s.log ++ D ∧ NotOpened (handling D) := by
      intro s2 h2
      obtain ⟨D, d1, d2⟩ := l2.trans (spares_termDrop t _ _ h2).handled
      exact ⟨D, d1, by rw [d2, List.append_nil]; exact l1⟩
    cases hd' : winTermDrop t s1 with
    | stop w => rw [hd'] at h; cases h
    | ok y s2 => rw [hd'] at h; cases h; exact hd _ (Or.inl ⟨_, hd'⟩)
    | err e s2 => rw [hd'] at h; cases h; exact hd _ (Or.inr ⟨_, hd'⟩)

theorem mem_handling {c : ConCall} (hc : handles c = true) {a : Ans} (D : List WEv) :
    .call c a ∈ D ↔ (c, a) ∈ handling D := by
  unfold handling
  rw [List.mem_filter, mem_callsIn]
  simp [hc]

/-- **C76.** When a screen cannot be opened, the buffer made for it is closed if, and only if, it was not
shown and closing it did not fail: `Screen::new` does not close a buffer that it has shown. -/
theorem C76_unopened_closed {t : WTerm} {cfg : PrepareConfig} {x : IoErr} {s s' : WinSt} {D : List WEv} {b : Nat}
    (h : winScreenNew t cfg s = .err x s') (hD : s'.log = s.log ++ D) (hm : .call .create (.handle b) ∈ D)
    (hb : b ≠ 0) :
    .call (.close b) .ok ∈ D ↔ .call (.setActive b) .ok ∉ D ∧ .call (.close b) .fail ∉ D := by
  obtain ⟨D', d1, d2⟩ := C76_unopened_calls h
  obtain rfl : D' = D := List.append_cancel_left (d1.symm.trans hD)
  rw [mem_handling rfl] at hm
  rw [mem_handling rfl, mem_handling rfl, mem_handling rfl]
  generalize handling D' = l at *
  cases d2 with
  | early => cases hm
  | unmade => simp at hm; exact (hb hm).elim
  | unsized b' r hb' hr => simp at hm; subst hm; rcases hr with rfl | rfl <;> simp
  | unshown b' r hb' hr => simp at hm; subst hm; rcases hr with rfl | rfl <;> simp
  | late b' hb' => simp at hm; subst hm; simp

/-- Non-trivial cases: the console cannot show the new buffer, and it is closed; the mode of the input cannot
be changed, and it stays open and is shown. -/
example : ∃ s1 s2,
    (∃ x, winScreenNew demoTerm (winCfg .new false false) (demoSt ((sessEnterOs.take 4) ++
      [⟨[], .fail⟩, ⟨[], .ok⟩, ⟨[], .ok⟩, ⟨[], .ok⟩])) = .err x s1) ∧
    handling s1.log = [(.create, .handle 3), (.setActive 3, .fail), (.close 3, .ok)] ∧
    (∃ x, winScreenNew demoTerm (winCfg .new false false) (demoSt (sessEnterOs ++
      [⟨[], .fail⟩, ⟨[], .ok⟩, ⟨[], .ok⟩])) = .err x s2) ∧
    handling s2.log = [(.create, .handle 3), (.setActive 3, .ok)] ∧ .call (.close 3) .ok ∉ s2.log := by
  have key : ∀ (os : List ConStep) (l : List (ConCall × Ans)), (match winScreenNew demoTerm (winCfg .new false false) (demoSt os) with
      | .err _ s => handling s.log == l
      | _ => false) = true → ∃ s, (∃ x, winScreenNew demoTerm (winCfg .new false false) (demoSt os) = .err x s) ∧
        handling s.log = l := by
    intro os l h
    split at h
    · rename_i x s e
      exact ⟨s, ⟨x, e⟩, by simpa using h⟩
    · cases h
  obtain ⟨s1, a1, a2⟩ := key (sessEnterOs.take 4 ++ [⟨[], .fail⟩, ⟨[], .ok⟩, ⟨[], .ok⟩, ⟨[], .ok⟩])
    [(.create, .handle 3), (.setActive 3, .fail), (.close 3, .ok)] (by decide +kernel)
  obtain ⟨s2, ⟨x, b1⟩, b2⟩ := key (sessEnterOs ++ [⟨[], .fail⟩, ⟨[], .ok⟩, ⟨[], .ok⟩])
    [(.create, .handle 3), (.setActive 3, .ok)] (by decide +kernel)
  refine ⟨s1, s2, a1, a2, ⟨x, b1⟩, b2, fun hc => ?_⟩
  have hm : ∀ p ∈ [(ConCall.create, Ans.handle 3), (ConCall.setActive 3, Ans.ok)], WEv.call p.1 p.2 ∈ s2.log := by
    intro p hp
    rw [← b2] at hp
    exact (mem_callsIn _).mp (List.mem_filter.mp hp).1
  exact ((C76_unopened_closed (D := s2.log) b1 rfl (hm (_, _) (by simp)) (by decide)).mp hc).1 (hm (_, _) (by simp))

end Mortal
