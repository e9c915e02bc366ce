import Verif.Spec.WinDrop
import Verif.Props.WinHandles

/-!
# C76: exactly when the buffer of a screen is closed

What is called when a screen is dropped, whatever the console answers.
-/

namespace Mortal
open Spec

theorem callsIn_append (a b : List WEv) : callsIn (a ++ b) = callsIn a ++ callsIn b := by
  induction a with
  | nil => rfl
  | cons e a ih => cases e <;> simp [callsIn, ih]

theorem callsIn_none {D : List WEv} (h : ∀ e ∈ D, ∀ c x, e ≠ .call c x) : callsIn D = [] := by
  induction D with
  | nil => rfl
  | cons e D ih =>
    cases e with
    | call c x => exact (h _ List.mem_cons_self c x rfl).elim
    | _ => exact ih fun e he => h e (List.mem_cons_of_mem _ he)

/-- What a computation calls, as a list that is attempted; the output handle stays. -/
def Tries (m : WM Unit) (L : List ConCall) (s : WinSt) : Prop :=
  (∀ x s', m s = .ok x s' → s'.outH = s.outH ∧ ∃ D, s'.log = s.log ++ D ∧ callsIn D = L.map (·, .ok)) ∧
  (∀ x s', m s = .err x s' → s'.outH = s.outH ∧ ∃ D A c B, s'.log = s.log ++ D ∧ L = A ++ c :: B ∧
    callsIn D = A.map (·, .ok) ++ [(c, .fail)])

theorem tries_bool (c : ConCall) (s : WinSt) : Tries (boolCall c) [c] s := by
  have h := boolCall_cases (c := c) 0 0 s
  constructor
  · intro x s' e
    obtain ⟨h1, D, h2, h3⟩ := h.1 x s' e
    refine ⟨h1, D ++ [.call c .ok], by rw [h2, List.append_assoc], ?_⟩
    rw [callsIn_append, callsIn_none fun e he => (h3 e he).2]
    rfl
  · intro x s' e
    obtain ⟨h1, D, h2, h3⟩ := h.2 x s' e
    refine ⟨h1, D ++ [.call c .fail], [], c, [], by rw [h2, List.append_assoc], rfl, ?_⟩
    rw [callsIn_append, callsIn_none fun e he => (h3 e he).2]
    rfl

theorem tries_bind {m m' : WM Unit} {L L' : List ConCall} {s : WinSt}
    (h : Tries m L s) (h' : ∀ s1, s1.outH = s.outH → Tries m' L' s1) :
    Tries (m >>= fun _ => m') (L ++ L') s := by
  constructor
  · intro x s' e
    cases h1 : m s with
    | stop w => simp only [sm_bind, h1] at e; cases e
    | err x1 s1 => simp only [sm_bind, h1] at e; cases e
    | ok a s1 =>
      simp only [sm_bind, h1] at e
      obtain ⟨e0, D, e1, e2⟩ := h.1 a s1 h1
      obtain ⟨f0, D', f1, f2⟩ := (h' s1 e0).1 x s' e
      exact ⟨f0.trans e0, D ++ D', by rw [f1, e1, List.append_assoc], by rw [callsIn_append, e2, f2, List.map_append]⟩
  · intro x s' e
    cases h1 : m s with
    | stop w => simp only [sm_bind, h1] at e; cases e
    | err x1 s1 =>
      simp only [sm_bind, h1] at e
      cases e
      obtain ⟨e0, D, A, c, B, e1, e2, e3⟩ := h.2 _ _ h1
      exact ⟨e0, D, A, c, B ++ L', e1, by rw [e2]; simp, e3⟩
    | ok a s1 =>
      simp only [sm_bind, h1] at e
      obtain ⟨e0, D, e1, e2⟩ := h.1 a s1 h1
      obtain ⟨f0, D', A, c, B, f1, f2, f3⟩ := (h' s1 e0).2 x s' e
      exact ⟨f0.trans e0, D ++ D', L ++ A, c, B, by rw [f1, e1, List.append_assoc], by rw [f2, List.append_assoc],
        by rw [callsIn_append, e2, f3, List.map_append, List.append_assoc]⟩

theorem tries_restore (t : WTerm) (x : WinPrepared) (s : WinSt) :
    Tries (winRestore t x) ((if x.clearHandler then [.setCtrlHandler false] else []) ++
      [.setMode t.inH (x.oldIn ||| 0x80#32)]) s := by
  unfold winRestore
  refine tries_bind ?_ fun s1 _ => tries_bool _ s1
  cases x.clearHandler with
  | true => exact tries_bool _ s
  | false =>
    constructor
    · intro a s' e
      cases e
      exact ⟨rfl, [], (List.append_nil _).symm, rfl⟩
    · intro a s' e
      cases e

theorem tries_own (t : WTerm) (s : WinSt) :
    Tries (do winCursorMode .normal; setConsoleMode (← SM.get).outH t.oldOut)
      [.setCursorInfo s.outH 25 true, .setMode s.outH t.oldOut] s := by
  refine tries_bind (L := [_]) (L' := [_]) (tries_bool (.setCursorInfo s.outH 25 true) s) fun s1 h1 => ?_
  rw [← h1]
  exact tries_bool _ s1

/-- Leaving a screen; what is shown afterwards. -/
theorem leaving_calls (t : WTerm) (x : WScreen) (s : WinSt) :
    (∀ a s', (do winRestore t x.state; winExitScreen x.old) s = .ok a s' ∨
        (∃ e, (do winRestore t x.state; winExitScreen x.old) s = .err e s') →
      ∃ D, s'.log = s.log ++ D ∧ Attempted (leaving t x s.outH) (callsIn D) ∧
        s'.outH = if (.setActive x.old, .ok) ∈ callsIn D then x.old else s.outH) := by
  intro a s' h
  have hr := tries_restore t x.state s
  have hno : ∀ b, (ConCall.setActive x.old, b) ∉
      (((if x.state.clearHandler then [ConCall.setCtrlHandler false] else []) ++
        [ConCall.setMode t.inH (x.state.oldIn ||| 0x80#32)]).map fun c => (c, Ans.ok)) := by
    intro b
    cases x.state.clearHandler <;> simp
  cases h1 : winRestore t x.state s with
  | stop w =>
    simp only [sm_bind, h1] at h
    rcases h with h | ⟨_, h⟩ <;> cases h
  | err e s1 =>
    simp only [sm_bind, h1] at h
    rcases h with h | ⟨_, h⟩
    · cases h
    · cases h
      obtain ⟨e0, D, A, c, B, e1, e2, e3⟩ := hr.2 _ _ h1
      refine ⟨D, e1, Or.inr ⟨A, c, B ++ [.setActive x.old, .close s.outH], ?_, e3⟩, ?_⟩
      · unfold leaving
        rw [show ∀ l : List ConCall, ∀ a b c, l ++ [a, b, c] = (l ++ [a]) ++ [b, c] by intros; simp, e2]
        simp
      · rw [if_neg, e0]
        intro hm
        rw [e3] at hm
        rcases List.mem_append.mp hm with hm | hm
        · refine hno .ok ?_
          rw [e2, List.map_append]
          exact List.mem_append_left _ hm
        · simp at hm
  | ok a1 s1 =>
    simp only [sm_bind, h1] at h
    obtain ⟨e0, D, e1, e2⟩ := hr.1 _ _ h1
    unfold winExitScreen at h
    have hb := tries_bool (.setActive x.old) s1
    cases h2 : boolCall (.setActive x.old) s1 with
    | stop w =>
      simp only [sm_bind, h2] at h
      rcases h with h | ⟨_, h⟩ <;> cases h
    | err e s2 =>
      simp only [sm_bind, h2] at h
      rcases h with h | ⟨_, h⟩
      · cases h
      · cases h
        obtain ⟨f0, D', A, c, B, f1, f2, f3⟩ := hb.2 _ _ h2
        obtain ⟨rfl, rfl, rfl⟩ : A = [] ∧ c = .setActive x.old ∧ B = [] := by
          cases A with
          | nil => cases f2; exact ⟨rfl, rfl, rfl⟩
          | cons a A => cases A <;> cases f2
        refine ⟨D ++ D', by rw [f1, e1, List.append_assoc], Or.inr ⟨_, .setActive x.old, [.close s.outH], ?_,
          by rw [callsIn_append, e2, f3]; rfl⟩, ?_⟩
        · unfold leaving; simp
        · rw [if_neg, f0, e0]
          rw [callsIn_append, e2, f3]
          intro hm
          rcases List.mem_append.mp hm with hm | hm
          · exact hno _ hm
          · simp at hm
    | ok a2 s2 =>
      simp only [sm_bind, h2] at h
      obtain ⟨f0, D', f1, f2⟩ := hb.1 _ _ h2
      have hm : ∀ r, (ConCall.setActive x.old, Ans.ok) ∈ callsIn (D ++ D') ++ r := by
        intro r
        rw [callsIn_append, f2]
        simp
      have hc := tries_bool (.close s.outH) { s2 with outH := x.old }
      rw [← e0, ← f0] at hc
      have h : boolCall (.close s2.outH) { s2 with outH := x.old } = .ok a s' ∨
        ∃ e, boolCall (.close s2.outH) { s2 with outH := x.old } = .err e s' := h
      rcases h with h | ⟨e, h⟩
      · obtain ⟨g0, D2, g1, g2⟩ := hc.1 _ _ h
        refine ⟨D ++ D' ++ D2, by rw [g1]; show s2.log ++ D2 = _; rw [f1, e1]; simp, Or.inl ?_, ?_⟩
        · rw [callsIn_append, callsIn_append, e2, f2, g2, f0, e0]
          unfold leaving
          simp
        · rw [callsIn_append, if_pos (hm _)]
          exact g0
      · obtain ⟨g0, D2, A, c, B, g1, g2, g3⟩ := hc.2 _ _ h
        obtain ⟨rfl, rfl, rfl⟩ : A = [] ∧ c = .close s2.outH ∧ B = [] := by
          cases A with
          | nil => cases g2; exact ⟨rfl, rfl, rfl⟩
          | cons a A => cases A <;> cases g2
        refine ⟨D ++ D' ++ D2, by rw [g1]; show s2.log ++ D2 = _; rw [f1, e1]; simp, Or.inr
          ⟨_, .close s.outH, [], ?_, by rw [callsIn_append, callsIn_append, e2, f2, g3, f0, e0, ← List.map_append]; rfl⟩, ?_⟩
        · unfold leaving; simp
        · rw [callsIn_append, if_pos (hm _)]
          exact g0

/-- **C76.** What is called when a screen is dropped, exactly: the calls for leaving it, in their order,
until one fails; then the calls for the terminal's own end, on the terminal's own buffer if this is shown
again, otherwise on that of the screen. -/
theorem C76_drop_calls {t : WTerm} {x : WScreen} {s s' : WinSt} (h : screenEnd t x s = some s') :
    ∃ D l l' g, s'.log = s.log ++ D ∧ callsIn D = l ++ l' ∧ Attempted (leaving t x s.outH) l ∧
      g = (if (.setActive x.old, .ok) ∈ l then x.old else s.outH) ∧
      Attempted [.setCursorInfo g 25 true, .setMode g t.oldOut] l' := by
  obtain ⟨s1, D, h1, h2, h3, h4⟩ : ∃ s1 D, (SM.ignore do winRestore t x.state; winExitScreen x.old) s = .ok () s1 ∧
      s1.log = s.log ++ D ∧ Attempted (leaving t x s.outH) (callsIn D) ∧
      s1.outH = if (.setActive x.old, .ok) ∈ callsIn D then x.old else s.outH := by
    have hl := leaving_calls t x s
    cases hm : (do winRestore t x.state; winExitScreen x.old : WM Unit) s with
    | stop w =>
      have : winScreenDrop t x s = .stop w := by
        have hi : (SM.ignore do winRestore t x.state; winExitScreen x.old) s = .stop w := by unfold SM.ignore; rw [hm]
        unfold winScreenDrop
        rw [sm_bind, hi]
      unfold screenEnd at h
      rw [this] at h
      cases h
    | err e s1 =>
      obtain ⟨D, d⟩ := hl () s1 (Or.inr ⟨e, hm⟩)
      exact ⟨s1, D, by unfold SM.ignore; rw [hm], d⟩
    | ok a s1 =>
      obtain ⟨D, d⟩ := hl a s1 (Or.inl hm)
      exact ⟨s1, D, by unfold SM.ignore; rw [hm], d⟩
  have he : winScreenDrop t x s = winTermDrop t s1 := by
    unfold winScreenDrop
    rw [sm_bind, h1]
  unfold screenEnd at h
  rw [he] at h
  have ho := tries_own t s1
  unfold winTermDrop SM.ignore at h
  cases hm : (do winCursorMode .normal; setConsoleMode (← SM.get).outH t.oldOut : WM Unit) s1 with
  | stop w => rw [hm] at h; cases h
  | err e s2 =>
    rw [hm] at h
    cases h
    obtain ⟨-, D', A, c, B, e1, e2, e3⟩ := ho.2 _ _ hm
    exact ⟨D ++ D', _, _, _, by rw [e1, h2, List.append_assoc], callsIn_append _ _, h3, h4, Or.inr ⟨A, c, B, e2, e3⟩⟩
  | ok a s2 =>
    rw [hm] at h
    cases h
    obtain ⟨-, D', e1, e2⟩ := ho.1 _ _ hm
    exact ⟨D ++ D', _, _, _, by rw [e1, h2, List.append_assoc], callsIn_append _ _, h3, h4, Or.inl e2⟩

theorem mem_callsIn {c : ConCall} {a : Ans} (D : List WEv) : (c, a) ∈ callsIn D ↔ .call c a ∈ D := by
  induction D with
  | nil => simp [callsIn]
  | cons e D ih => cases e <;> simp [callsIn, ih]

/-- **C76.** Dropping a screen closes its buffer if, and only if, none of the calls for leaving the screen
fails: taking back the control handler, if there is one, restoring the mode of the input, showing the
terminal's own buffer, and closing. -/
theorem C76_drop_closes {t : WTerm} {x : WScreen} {s s' : WinSt} {D : List WEv} (h : screenEnd t x s = some s')
    (hD : s'.log = s.log ++ D) (hold : x.old ≠ t.inH) (hout : s.outH ≠ t.inH) :
    .call (.close s.outH) .ok ∈ D ↔ ∀ c ∈ leaving t x s.outH, .call c .fail ∉ D := by
  obtain ⟨D', l, l', g, e1, e2, e3, e4, e5⟩ := C76_drop_calls h
  obtain rfl : D' = D := List.append_cancel_left (e1.symm.trans hD)
  have hg : g ≠ t.inH := by rw [e4]; split <;> assumption
  have hmem : ∀ p ∈ l', p.1 = .setCursorInfo g 25 true ∨ p.1 = .setMode g t.oldOut := by
    intro p hp
    rcases e5 with e | ⟨A, c, B, f1, f2⟩
    · rw [e] at hp
      simp only [List.map_cons, List.map_nil, List.mem_cons, List.not_mem_nil, or_false] at hp
      rcases hp with rfl | rfl <;> simp
    · have : p.1 ∈ A ++ c :: B := by
        rw [f2] at hp
        rcases List.mem_append.mp hp with hp | hp
        · obtain ⟨a, ha, rfl⟩ := List.mem_map.mp hp
          exact List.mem_append_left _ ha
        · cases List.mem_singleton.mp hp
          simp
      rw [← f1] at this
      simpa using this
  have hmode : ∀ c ∈ leaving t x s.outH, ∀ a, (c, a) ∉ l' := by
    intro c hc a ha
    unfold leaving at hc
    rcases hmem _ ha with e | e <;> dsimp only at e <;> subst e
    · cases x.state.clearHandler <;> simp at hc
    · cases x.state.clearHandler <;> simp at hc <;> exact hg hc.1
  have hclose : ConCall.close s.outH ∈ leaving t x s.outH := by unfold leaving; simp
  simp only [← mem_callsIn, e2, List.mem_append]
  constructor
  · rintro (hc | hc) c hcl (hf | hf)
    · rcases e3 with e | ⟨A, c', B, f1, f2⟩
      · rw [e] at hf
        obtain ⟨_, _, e⟩ := List.mem_map.mp hf
        cases e
      · -- closing is the last of the calls
        rw [f2] at hc
        rcases List.mem_append.mp hc with hc | hc
        · obtain ⟨_, ha, e⟩ := List.mem_map.mp hc
          cases e
          unfold leaving at f1
          rw [show ∀ l : List ConCall, ∀ a b c, l ++ [a, b, c] = (l ++ [a, b]) ++ [c] by intros; simp] at f1
          have hA : ConCall.close s.outH ∈ ((if x.state.clearHandler then [ConCall.setCtrlHandler false] else []) ++
              [.setMode t.inH (x.state.oldIn ||| 0x80#32), .setActive x.old]) := by
            have h6 : A <+: ((if x.state.clearHandler then [ConCall.setCtrlHandler false] else []) ++
              [.setMode t.inH (x.state.oldIn ||| 0x80#32), .setActive x.old]) := by
              have hp : A <+: ((if x.state.clearHandler then [ConCall.setCtrlHandler false] else []) ++
                [.setMode t.inH (x.state.oldIn ||| 0x80#32), .setActive x.old]) ++ [ConCall.close s.outH] := by
                rw [f1]; exact List.prefix_append _ _
              refine List.prefix_of_prefix_length_le hp (List.prefix_append _ _) ?_
              have := congrArg List.length f1
              simp only [List.length_append, List.length_cons, List.length_nil] at this ⊢
              omega
            exact h6.subset ha
          cases x.state.clearHandler <;> simp at hA
        · simp at hc
    · exact hmode _ hcl _ hf
    · exact hmode _ hclose _ hc
    · exact hmode _ hclose _ hc
  · intro hf
    left
    rcases e3 with e | ⟨A, c', B, f1, f2⟩
    · rw [e]
      exact List.mem_map.mpr ⟨_, hclose, rfl⟩
    · refine (hf c' (by rw [f1]; simp) (Or.inl ?_)).elim
      rw [f2]
      simp

/-- A screen with buffer 3 on a terminal with buffer 2, about to be dropped. -/
def dropSt (os : List Ans) : WinSt := { demoSt (os.map (⟨[], ·⟩)) with outH := 3 }

def dropScr : WScreen := ⟨⟨0x1F7, true⟩, 2⟩

/-- Non-trivial case: nothing fails but the last call, for the terminal's own buffer. The buffer of the
screen is closed. -/
example : ∃ s', screenEnd demoTerm dropScr (dropSt [.ok, .ok, .ok, .ok, .ok, .fail]) = some s' ∧
    (∀ c ∈ leaving demoTerm dropScr 3, .call c .fail ∉ s'.log) ∧ .call (.close 3) .ok ∈ s'.log ∧
    .call (.setMode 2 demoTerm.oldOut) .fail ∈ s'.log := by
  have h : ((screenEnd demoTerm dropScr (dropSt [.ok, .ok, .ok, .ok, .ok, .fail])).map fun s' =>
      decide (.call (.close 3) .ok ∈ s'.log ∧ .call (.setMode 2 demoTerm.oldOut) .fail ∈ s'.log)) = some true := by
    decide +kernel
  obtain ⟨s', h1, h2⟩ := Option.map_eq_some_iff.mp h
  obtain ⟨h2, h3⟩ := of_decide_eq_true h2
  exact ⟨s', h1, (C76_drop_closes (D := s'.log) h1 rfl (by decide) (by decide)).mp h2, h2, h3⟩

/-- The other way: the mode of the input cannot be restored. The buffer is not closed, is still shown, and
is taken for the terminal's own in the end. -/
example : ∃ s', screenEnd demoTerm dropScr (dropSt [.ok, .fail, .ok, .ok]) = some s' ∧
    .call (.close 3) .ok ∉ s'.log ∧
    callsIn s'.log = [(.setCtrlHandler false, .ok), (.setMode demoTerm.inH 0x1F7, .fail),
      (.setCursorInfo 3 25 true, .ok), (.setMode 3 demoTerm.oldOut, .ok)] := by
  have h : ((screenEnd demoTerm dropScr (dropSt [.ok, .fail, .ok, .ok])).map fun s' => decide (
      .call (.setMode demoTerm.inH 0x1F7) .fail ∈ s'.log ∧
      callsIn s'.log = [(.setCtrlHandler false, .ok), (.setMode demoTerm.inH 0x1F7, .fail),
        (.setCursorInfo 3 25 true, .ok), (.setMode 3 demoTerm.oldOut, .ok)])) = some true := by decide +kernel
  obtain ⟨s', h1, h2⟩ := Option.map_eq_some_iff.mp h
  obtain ⟨h2, h3⟩ := of_decide_eq_true h2
  refine ⟨s', h1, fun hc => ?_, h3⟩
  exact (C76_drop_closes (D := s'.log) h1 rfl (by decide) (by decide)).mp hc _ (by
    show _ ∈ leaving demoTerm dropScr 3
    decide +kernel) h2

end Mortal
