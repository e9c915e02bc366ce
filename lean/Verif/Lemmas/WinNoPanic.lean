import Verif.Lemmas.WinCommands

/-! # Code that does not panic on a Windows console -/

namespace Mortal
open Spec

/-- The code does not panic from a state. -/
def NoPanicAt {σ α : Type} (m : SM σ α) (s : σ) : Prop := m s ≠ .stop .panic

/-- The code never panics. -/
def NeverPanics {σ α : Type} (m : SM σ α) : Prop := ∀ s, NoPanicAt m s

theorem NoPanicAt.bind {σ α β : Type} {m : SM σ α} {f : α → SM σ β} {s : σ} (h : NoPanicAt m s)
    (h' : ∀ a s', m s = .ok a s' → NoPanicAt (f a) s') : NoPanicAt (m >>= f) s := by
  unfold NoPanicAt at *
  rw [sm_bind]
  cases e : m s with
  | ok a s' => exact h' a s' e
  | err e' s' => intro hx; cases hx
  | stop w => rw [e] at h; exact fun hx => h (by cases hx; rfl)

theorem NeverPanics.bind {σ α β : Type} {m : SM σ α} {f : α → SM σ β} (h : NeverPanics m)
    (h' : ∀ a, NeverPanics (f a)) : NeverPanics (m >>= f) :=
  fun s => NoPanicAt.bind (h s) fun a s' _ => h' a s'

theorem NeverPanics.pure {σ α : Type} (a : α) : NeverPanics (pure a : SM σ α) :=
  fun s h => by cases h

theorem neverPanics_get {σ : Type} : NeverPanics (SM.get : SM σ σ) := fun s h => by cases h

theorem neverPanics_some {σ α : Type} (a : α) : NeverPanics (SM.ofPanics (some a) : SM σ α) :=
  fun s h => by cases h

theorem neverPanics_throw {σ α : Type} (e : IoErr) : NeverPanics (SM.throw e : SM σ α) :=
  fun s h => by cases h

theorem neverPanics_blocked {σ α : Type} : NeverPanics (SM.halt .blocked : SM σ α) :=
  fun s h => by cases h

theorem neverPanics_conCall (c : ConCall) : NeverPanics (conCall c) := by
  intro s h
  unfold conCall at h
  cases ho : s.os with
  | nil => rw [ho] at h; cases h
  | cons st os => rw [ho] at h; cases h

theorem neverPanics_boolCall (c : ConCall) : NeverPanics (boolCall c) := by
  unfold boolCall
  refine .bind (neverPanics_conCall c) fun a => ?_
  cases a <;> first | exact .pure _ | exact neverPanics_throw _ | exact neverPanics_blocked

theorem neverPanics_info (h : Nat) : NeverPanics (consoleInfo h) := by
  unfold consoleInfo
  refine .bind (neverPanics_conCall _) fun a => ?_
  cases a <;> first | exact .pure _ | exact neverPanics_throw _ | exact neverPanics_blocked

theorem neverPanics_moveAbs (p : Coord) : NeverPanics (moveAbs p) :=
  .bind neverPanics_get fun _ => neverPanics_boolCall _

theorem neverPanics_clearArea (t : WTerm) (start : Coord) (n : BitVec 32) :
    NeverPanics (clearArea t start n) :=
  .bind neverPanics_get fun _ => .bind (neverPanics_boolCall _) fun _ => neverPanics_boolCall _

theorem neverPanics_when {σ : Type} {p : Prop} [Decidable p] {m : SM σ Unit}
    (h : p → NeverPanics m) : NeverPanics (SM.when p m) := by
  unfold SM.when
  split
  · exact h ‹_›
  · exact .pure _

/-- What `GetConsoleScreenBufferInfo` answers comes from the schedule. -/
theorem consoleInfo_answer {h : Nat} {s s' : WinSt} {i : Info} (e : consoleInfo h s = .ok i s') :
    ∃ st l, s.os = st :: l ∧ st.ans = .info i := by
  unfold consoleInfo at e
  rw [sm_bind] at e
  unfold conCall at e
  dsimp only at e
  cases ho : s.os with
  | nil => rw [ho] at e; cases e
  | cons st l =>
    rw [ho] at e
    dsimp only at e
    refine ⟨st, l, rfl, ?_⟩
    cases ha : st.ans <;> rw [ha] at e <;> cases e
    rfl

/-- Code that begins by asking about the buffer. -/
theorem noPanicAt_info {α : Type} {f : Info → WM α} {s : WinSt}
    (hi : ∀ st l i, s.os = st :: l → st.ans = .info i → NeverPanics (f i)) :
    NoPanicAt (do
      let i ← consoleInfo (← SM.get).outH
      f i) s := by
  refine NoPanicAt.bind (neverPanics_get s) fun a s1 e => ?_
  cases e
  refine NoPanicAt.bind (neverPanics_info _ s) fun i s2 e => ?_
  obtain ⟨st, l, h1, h2⟩ := consoleInfo_answer e
  exact hi st l i h1 h2 s2

theorem neverPanics_short {β : Type} {n : Int} {f : Int → WM β} (h1 : -32768 ≤ n) (h2 : n ≤ 32767)
    (h : NeverPanics (f n)) : NeverPanics (SM.ofPanics (short n) >>= f) := by
  rw [short_some h1 h2]
  intro s
  rw [NoPanicAt, sm_bind, sm_ofPanics_some]
  exact h s

theorem neverPanics_clearScreen {t : WTerm} {s : WinSt}
    (hi : ∀ st l i, s.os = st :: l → st.ans = .info i →
      ∃ o : OutBuf, o.Tells i ∧ BufSize o.glyph.size ∧ RectIn o.window o.glyph.size) :
    NoPanicAt (winClearScreen t) s := by
  unfold winClearScreen
  refine NoPanicAt.bind (neverPanics_get s) fun a s1 e => ?_
  cases e
  dsimp only
  refine NoPanicAt.bind (neverPanics_info _ s) fun i s2 e => ?_
  obtain ⟨st, l, h1, h2⟩ := consoleInfo_answer e
  obtain ⟨o, ht, hs, w1, w2, w3, w4, w5, w6⟩ := hi st l i h1 h2
  obtain ⟨z1, z2, z3, z4⟩ := id hs
  obtain ⟨p, hp, ep⟩ := tells_cursor ht
  obtain ⟨hi1, -, -, -, hi5⟩ := ht
  have hy : i.size.y = o.glyph.size.lines := by rw [hi1]; rfl
  have hcy : i.cursor.y = p.line := by rw [ep]; rfl
  have hpl := hp.1.1
  have hgoal : NeverPanics (do
      let ht ← SM.ofPanics (short (i.window.bottom - i.window.top))
      let ht ← SM.ofPanics (short (ht + 1))
      if ht = i.size.y then
        let n ← SM.ofPanics (wholeCount i.size)
        clearArea t ⟨0, 0⟩ n
        moveAbs ⟨i.window.left, i.window.top⟩
      else
        let b1 ← SM.ofPanics (short (i.window.bottom + 1))
        let max ← SM.ofPanics (short (i.size.y - b1))
        let c1 ← SM.ofPanics (short (i.cursor.y + 1))
        let dist ← SM.ofPanics (short (c1 - i.window.top))
        let down := min dist max
        let win ← moveWindow s.outH i.window down
        let clear ← SM.ofPanics (short (win.bottom - i.cursor.y))
        SM.when (clear < ht) do
          let d ← SM.ofPanics (short (ht - clear))
          boolCall (.scroll s.outH ⟨0, d, i.size.x, i.cursor.y⟩ ⟨0, 0⟩)
        moveAbs ⟨win.left, win.top⟩) := by
    rw [hi5, hcy]
    refine neverPanics_short (by omega) (by omega) ?_
    refine neverPanics_short (by omega) (by omega) ?_
    split
    · rw [hi1, (wholeCount_eq (bufSize_small hs)).1]
      exact .bind (neverPanics_some _) fun _ => .bind (neverPanics_clearArea _ _ _) fun _ =>
        neverPanics_moveAbs _
    · refine neverPanics_short (by omega) (by omega) ?_
      refine neverPanics_short (by omega) (by omega) ?_
      refine neverPanics_short (by omega) (by omega) ?_
      refine neverPanics_short (by omega) (by omega) ?_
      dsimp only
      intro s3
      refine NoPanicAt.bind ?_ fun win s4 ew => ?_
      · unfold moveWindow
        split
        · refine neverPanics_short (by omega) (by omega) ?_ s3
          refine neverPanics_short (by omega) (by omega) ?_
          exact .bind (neverPanics_boolCall _) fun _ => .pure _
        · exact NeverPanics.pure _ s3
      · have hb : win.bottom ≤ 32767 ∧ 0 ≤ win.bottom ∧ win.bottom - win.top = o.window.bottom - o.window.top ∧ 0 ≤ win.top := by
          unfold moveWindow at ew
          split at ew
          · rw [short_some (by omega) (by omega), short_some (by omega) (by omega)] at ew
            simp only [sm_bind, sm_ofPanics_some] at ew
            split at ew
            · cases ew; dsimp only; omega
            · cases ew
            · cases ew
          · cases ew; omega
        refine neverPanics_short (by omega) (by omega) ?_ s4
        refine .bind (neverPanics_when fun hc => ?_) fun _ => neverPanics_moveAbs _
        refine neverPanics_short (by omega) (by omega) ?_
        exact neverPanics_boolCall _
  exact hgoal s2

end Mortal
