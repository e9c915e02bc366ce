import Verif.Lemmas.BufferBack
import Verif.Lemmas.ScreenTexts

/-! # Refreshing does not change what is to be shown -/

namespace Mortal
open Spec Buf

theorem wb_wb (k k' : List Cell) (b : Buf) : (b.wb k).wb k' = b.wb k' := rfl
theorem wb_self (b : Buf) : b.wb b.back = b := rfl

/-- Whatever the outcome, only the record of the buffer may have changed. -/
def SameContent (b : Buf) (o : Outcome Scr) : Prop := ∀ s', o.state = some s' → s'.buf = b.wb s'.buf.back

theorem SameContent.andThen {b : Buf} {o : Outcome Scr} {f : Scr → Outcome Scr} (h : SameContent b o)
    (hf : ∀ s, s.buf = b.wb s.buf.back → SameContent b (f s)) : SameContent b (o >>? f) := by
  cases o with
  | ok s => exact hf s (h s rfl)
  | err e s => exact h
  | stop x => intro s' e; cases e

theorem keeps_onW {b : Buf} (f : WS → Outcome WS) {s : Scr} (h : s.buf = b.wb s.buf.back) :
    SameContent b (s.onW f) := by
  rw [onW_def]
  intro s' e
  cases hf : f s.w with
  | ok w => rw [hf] at e; cases e; exact h
  | err e1 w => rw [hf] at e; cases e; exact h
  | stop x => rw [hf] at e; cases e

theorem keeps_ok {b : Buf} {s : Scr} (h : s.buf = b.wb s.buf.back) : SameContent b (.ok s) := by
  intro s' e; cases e; exact h

theorem keeps_stop {b : Buf} {x : Stop} : SameContent b (.stop x) := by intro s' e; cases e

theorem keeps_move {b : Buf} (env : WEnv) (p : Cursor) {s : Scr} (h : s.buf = b.wb s.buf.back) :
    SameContent b (s.moveCursor env p) := by
  unfold Scr.moveCursor
  split
  · exact (keeps_onW _ h).andThen fun s hs => keeps_ok hs
  · exact keeps_ok h

theorem keeps_draw {b : Buf} (env : WEnv) (p : Cursor) (c : Cell) {s : Scr}
    (h : s.buf = b.wb s.buf.back) : SameContent b (s.drawCell env p c) := by
  unfold Scr.drawCell
  refine (((keeps_move env p h).andThen fun s hs => keeps_onW _ hs).andThen
    fun s hs => keeps_onW _ hs).andThen fun s hs => ?_
  dsimp only
  split
  · exact keeps_stop
  · exact keeps_ok hs

theorem nextCell_keep (u : UEnv) (b : Buf) : ∀ (m n idx : Nat), n ≤ m → ∀ v,
    b.nextCell u n idx = some v → v.1 = b.wb v.1.back := by
  intro m
  induction m with
  | zero =>
    intro n idx hm v e
    obtain rfl : n = 0 := by omega
    cases e; rfl
  | succ m ih =>
    intro n idx hm v e
    cases n with
    | zero => cases e; rfl
    | succ n =>
      rw [nextCell_succ] at e
      simp only [Option.bind_eq_bind, Option.bind_eq_some_iff] at e
      obtain ⟨c, -, ch, -, old, -, e⟩ := e
      split at e
      · split at e
        · cases e
        · cases e; rfl
      · generalize (if u.w ch = 2 then min n 1 else 0) = k at e
        by_cases hk : k = 0
        · rw [if_pos hk] at e
          exact ih _ _ (by omega) v e
        · rw [if_neg hk] at e
          cases n with
          | zero => cases e; rfl
          | succ n => exact ih _ _ (by omega) v e

theorem keeps_loop {b : Buf} (u : UEnv) (env : WEnv) : ∀ (f : Nat) (r : Nat × Nat) (s : Scr),
    s.buf = b.wb s.buf.back → SameContent b (s.drawLoop u env f r)
  | 0, _, _, _ => keeps_stop
  | f + 1, (idx, n), s, h => by
    simp only [Scr.drawLoop]
    cases e : s.buf.nextCell u n idx with
    | none => exact keeps_stop
    | some v =>
      have := nextCell_keep u s.buf n n idx (Nat.le_refl _) v e
      obtain ⟨b', rest, o⟩ := v
      dsimp only at this
      have hb : b' = b.wb b'.back := by rw [h] at this; exact this
      cases o with
      | none => exact keeps_ok hb
      | some pc =>
        obtain ⟨p, c⟩ := pc
        exact (keeps_draw env p c (s := { s with buf := b' }) hb).andThen
          fun s hs => keeps_loop u env f rest s hs

theorem keeps_refresh (u : UEnv) (env : WEnv) (s : Scr) : SameContent s.buf (s.refresh u env) := by
  rw [refresh_eq]
  have hcl : SameContent s.buf (s.clearIfNeeded env) := by
    unfold Scr.clearIfNeeded
    split
    · exact (keeps_onW _ rfl).andThen fun s hs => keeps_ok hs
    · exact keeps_ok rfl
  refine (hcl.andThen fun s hs => keeps_onW _ hs).andThen fun s1 hs => ?_
  refine (keeps_loop u env _ _ _ hs).andThen fun s2 hs => ?_
  refine ((keeps_onW _ hs).andThen fun s3 hs => ?_).andThen fun s hs => keeps_onW _ hs
  unfold Scr.placeCursor
  split
  · split
    · exact keeps_stop
    · exact keeps_move env _ hs
  · exact keeps_move env _ hs

theorem content_run (u : UEnv) (env : WEnv) : ∀ (steps : List SStep) (x y : Sess) (rs : List Bool)
    (b : Buf), x.s.buf = b.wb x.s.buf.back → runS u env steps x = some (rs, y) →
    ∃ b', runOps u (steps.filterMap SStep.asOp) b = some b' ∧ y.s.buf = b'.wb y.s.buf.back := by
  intro steps
  induction steps with
  | nil =>
    intro x y rs b hb e
    cases e
    exact ⟨b, rfl, hb⟩
  | cons st steps ih =>
    intro x y rs b hb e
    rw [runS] at e
    cases e1 : st.run u env x with
    | none => rw [e1] at e; cases e
    | some v =>
      obtain ⟨r, x'⟩ := v
      rw [e1] at e
      dsimp only at e
      rw [Option.map_eq_some_iff] at e
      obtain ⟨⟨l, y'⟩, e2, e3⟩ := e
      cases e3
      have step : ∀ op, st.asOp = some op → (∃ b1, op.run u b = some b1 ∧ x'.s.buf = b1.wb x'.s.buf.back) →
          ∃ b', runOps u ((st :: steps).filterMap SStep.asOp) b = some b' ∧ y'.s.buf = b'.wb y'.s.buf.back := by
        rintro op hop ⟨b1, h1, h2⟩
        obtain ⟨b', g1, g2⟩ := ih x' y' l b1 h2 e2
        refine ⟨b', ?_, g2⟩
        rw [List.filterMap_cons_some hop]
        show (op.run u b).bind _ = _
        rw [h1]; exact g1
      cases st with
      | refresh =>
        refine ih x' y' l b ?_ e2
        have hk := keeps_refresh u env x.s
        simp only [SStep.run] at e1
        cases er : x.s.refresh u env with
        | stop z => rw [er] at e1; cases e1
        | ok s1 =>
          rw [er] at e1 hk
          dsimp only at e1
          rw [Option.map_eq_some_iff] at e1
          obtain ⟨t', -, e4⟩ := e1
          cases e4
          have := hk s1 rfl
          rw [hb] at this; exact this
        | err e5 s1 =>
          rw [er] at e1 hk
          dsimp only at e1
          rw [Option.map_eq_some_iff] at e1
          obtain ⟨t', -, e4⟩ := e1
          cases e4
          have := hk s1 rfl
          rw [hb] at this; exact this
      | draw op =>
        refine step op rfl ?_
        simp only [SStep.run, Option.map_eq_some_iff] at e1
        obtain ⟨b2, e5, e4⟩ := e1
        cases e4
        by_cases hop : ∃ z, op = .resize z
        · obtain ⟨z, rfl⟩ := hop
          rw [hb, resize_wb] at e5
          exact ⟨b2, e5, rfl⟩
        · rw [hb, op_wb u _ op (fun z hz => hop ⟨z, hz⟩), Option.map_eq_some_iff] at e5
          obtain ⟨b1, h1, h2⟩ := e5
          refine ⟨b1, h1, ?_⟩
          show b2 = b1.wb b2.back
          rw [← h2]; rfl
      | resized z cell cur =>
        refine step (.resize z) rfl ?_
        simp only [SStep.run, Option.map_eq_some_iff] at e1
        obtain ⟨d, e5, e4⟩ := e1
        cases e4
        unfold SData.updateSize at e5
        cases e3 : x.s.buf.resize z with
        | none => rw [e3] at e5; cases e5
        | some b' =>
          rw [e3] at e5
          have e5 : _ = d := Option.some.inj e5
          subst e5
          rw [hb] at e3
          exact ⟨b', e3, rfl⟩

end Mortal
