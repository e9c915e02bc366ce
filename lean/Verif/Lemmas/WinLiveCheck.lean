import Verif.Lemmas.WinLive

/-!
# Running sessions on a console that changes

For the concrete cases beside the theorems.
-/

namespace Mortal
open Spec

/-- A step of a session; whether the screen's knowledge is current is computed too. -/
def liveStepW (u : UEnv) (t : WTerm) (x : WSess) (f : Bool) : LiveStep → Option (WSess × Bool)
  | .draw op => (stepW u t x (.draw op)).map fun y => (y, f)
  | .refresh => (stepW u t x .refresh).map fun y => (y, f)
  | .failed => (failW u t x).bind fun r => if r.1.all mildB then some (r.2, false) else none
  | .changed o =>
    match x.c.outs x.s.w.outH with
    | some o0 => if o.word = o0.word ∧ o.pend = o0.pend then
        some (⟨x.s, x.c.setOut x.s.w.outH o⟩, false) else none
    | none => none
  | .reported size =>
    match wsUpdateSize size x.s, x.c.outs x.s.w.outH with
    | .ok () s, some o => some (⟨s, x.c⟩, decide (o.glyph.size = size))
    | _, _ => none
  | .other => some (x, f)
  | .disturbed => none

theorem liveStepW_sound {u : UEnv} {t : WTerm} {x y : WSess} {f g : Bool} {st : LiveStep}
    (h : liveStepW u t x f st = some (y, g)) :
    st.To u t x y ∧ st.current x (f = true) = (g = true) := by
  cases st with
  | draw op =>
    simp only [liveStepW, Option.map_eq_some_iff] at h
    obtain ⟨y', h1, h2⟩ := h
    cases h2
    exact ⟨stepW_sound h1, rfl⟩
  | refresh =>
    simp only [liveStepW, Option.map_eq_some_iff] at h
    obtain ⟨y', h1, h2⟩ := h
    cases h2
    obtain ⟨e1, D, e2, e3, e4⟩ := stepW_sound h1
    exact ⟨⟨e1, D, e2, play_lives _ _ _ e3 e4⟩, rfl⟩
  | failed =>
    simp only [liveStepW, Option.bind_eq_some_iff] at h
    obtain ⟨⟨D, y'⟩, h1, h2⟩ := h
    dsimp only at h2
    split at h2
    · rename_i hm
      cases h2
      obtain ⟨e1, e2, e3, e4⟩ := failW_sound h1
      exact ⟨⟨e1, D, e2, lives_shaken _ _ _ (play_lives _ _ _ e3 e4),
        fun ev hev => mildB_sound (List.all_eq_true.mp hm ev hev)⟩,
        propext ⟨fun h => h.elim, fun h => by cases h⟩⟩
    · cases h2
  | changed o =>
    simp only [liveStepW] at h
    split at h
    · rename_i o0 ho
      split at h
      · rename_i hw
        cases h
        exact ⟨⟨rfl, ⟨x.c.queue, rfl⟩, o0, ho, hw.1, hw.2⟩,
          propext ⟨fun h => h.elim, fun h => by cases h⟩⟩
      · cases h
    · cases h
  | reported z =>
    simp only [liveStepW] at h
    split at h
    · rename_i s o e ho
      cases h
      refine ⟨⟨e, rfl⟩, propext ⟨?_, ?_⟩⟩
      · rintro ⟨o', h1, h2⟩
        rw [ho] at h1
        cases h1
        exact decide_eq_true h2
      · intro h2
        exact ⟨o, ho, of_decide_eq_true h2⟩
    · cases h
  | disturbed => cases h
  | other =>
    cases h
    exact ⟨⟨rfl, rfl, rfl, rfl, rfl⟩, rfl⟩

theorem shaken_join : ∀ (a b : List WEv) (c c1 c2 c' : Con), c.Lives u k a c1 → c1.Shifts c2 →
    c2.Lives u k b c' → c.Shaken u k (a ++ b) c'
  | [], [], c, c1, c2, c', h, e, h' => by
    obtain rfl : c1 = c := h
    obtain rfl : c' = c2 := h'
    exact e
  | [], ev :: b, c, c1, c2, c', h, e, ⟨g1, c3, g2, g3⟩ => by
    obtain rfl : c1 = c := h
    exact ⟨c2, e, g1, c3, g2, lives_shaken _ _ _ g3⟩
  | ev :: a, b, c, c1, c2, c', ⟨g1, c3, g2, g3⟩, e, h =>
    ⟨c, .inl rfl, g1, c3, g2, shaken_join a b c3 c1 c2 c' g3 e h⟩

/-- A refresh in which the buffer becomes `o` after `n` calls. -/
def shakeW (u : UEnv) (t : WTerm) (n : Nat) (o : OutBuf) (x : WSess) : Option WSess :=
  match wsRefresh u t x.s with
  | .ok () s =>
    let D := s.w.log.drop x.s.w.log.length
    if s.w.log = x.s.w.log ++ D then
      (checkPlay u t.inH (D.take n) x.c).bind fun c =>
        match c.outs c.active with
        | some o0 => if o.word = o0.word ∧ o.pend = o0.pend then
            (checkPlay u t.inH (D.drop n) (c.setOut c.active o)).map fun c' => ⟨s, c'⟩ else none
        | none => none
    else none
  | _ => none

theorem shakeW_sound {u : UEnv} {t : WTerm} {n : Nat} {o : OutBuf} {x y : WSess}
    (hz : ConSize o.glyph.size) (hw : WholeWindow o) (h : shakeW u t n o x = some y) :
    LiveStep.disturbed.To u t x y := by
  unfold shakeW at h
  split at h
  · rename_i s e
    dsimp only at h
    split at h
    · rename_i hl
      obtain ⟨c, h1, h⟩ := Option.bind_eq_some_iff.mp h
      split at h
      · rename_i o0 ho
        split at h
        · rename_i hs
          obtain ⟨c', h2, rfl⟩ := Option.map_eq_some_iff.mp h
          obtain ⟨g1, g2⟩ := checkPlay_sound _ _ _ h1
          obtain ⟨g3, g4⟩ := checkPlay_sound _ _ _ h2
          refine ⟨e, _, hl, ?_⟩
          rw [← List.take_append_drop n (List.drop _ _)]
          exact shaken_join _ _ _ _ _ _ (play_lives _ _ _ g1 g2)
            (Or.inr ⟨o0, o, c.queue, ho, rfl, hs.1, hs.2, hz, hw⟩) (play_lives _ _ _ g3 g4)
        · cases h
      · cases h
    · cases h
  · cases h

theorem livePath_join : ∀ (a b : List LiveStep) (x x' y : WSess) (f f' g : Prop),
    LivePath u t a x f x' f' → LivePath u t b x' f' y g → LivePath u t (a ++ b) x f y g
  | [], b, x, x', y, f, f', g, h, h' => by obtain ⟨rfl, rfl⟩ := h; exact h'
  | st :: a, b, x, x', y, f, f', g, ⟨x1, h1, h2⟩, h' => ⟨x1, h1, livePath_join a b x1 x' y _ f' g h2 h'⟩

/-- A session. -/
def liveW (u : UEnv) (t : WTerm) : List LiveStep → WSess → Bool → Option (WSess × Bool)
  | [], x, f => some (x, f)
  | st :: rest, x, f => (liveStepW u t x f st).bind fun r => liveW u t rest r.1 r.2

theorem liveW_sound {u : UEnv} {t : WTerm} : ∀ (steps : List LiveStep) (x y : WSess) (f g : Bool),
    liveW u t steps x f = some (y, g) → LivePath u t steps x (f = true) y (g = true)
  | [], x, y, f, g, h => by cases h; exact ⟨rfl, rfl⟩
  | st :: rest, x, y, f, g, h => by
    simp only [liveW, Option.bind_eq_some_iff] at h
    obtain ⟨⟨x1, f1⟩, h1, h2⟩ := h
    obtain ⟨g1, g2⟩ := liveStepW_sound h1
    refine ⟨x1, g1, ?_⟩
    rw [g2]
    exact liveW_sound rest x1 y f1 g h2

theorem liveW_run {u : UEnv} {t : WTerm} {steps : List LiveStep} {x : WSess} {f g : Bool}
    (d : WSess × Bool) (h : (liveW u t steps x f).map (·.2) = some g) :
    LivePath u t steps x (f = true) ((liveW u t steps x f).getD d).1 (g = true) := by
  rw [Option.map_eq_some_iff] at h
  obtain ⟨⟨y, g'⟩, h1, h2⟩ := h
  cases h2
  rw [h1]
  exact liveW_sound _ _ _ _ _ h1

end Mortal
