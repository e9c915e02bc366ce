import Verif.Lemmas.WinFail
import Verif.Lemmas.Direct
import Verif.Lemmas.Content
import Verif.Spec.WinLive

/-! # Screens on a Windows console that changes -/

namespace Mortal
open Spec

variable {u : UEnv} {k : Nat} {wt : WTerm}

/-! ## Consoles with more than one possible outcome -/

theorem lives_append : ∀ (a b : List WEv) (c c' : Con), c.Lives u k (a ++ b) c' →
    ∃ c1, c.Lives u k a c1 ∧ c1.Lives u k b c'
  | [], b, c, c', h => ⟨c, rfl, h⟩
  | e :: a, b, c, c', ⟨h1, c1, h2, h3⟩ => by
    obtain ⟨c2, g1, g2⟩ := lives_append a b c1 c' h3
    exact ⟨c2, ⟨h1, c1, h2, g1⟩, g2⟩

theorem may_step {c c1 c' : Con} {ev : WEv} (h : c.May u k ev c') (e : c.step u k ev = some c1) :
    c' = c1 := by
  unfold Con.May at h
  rw [e] at h
  exact h

theorem lives_runs : ∀ (D : List WEv) (c c' : Con), c.Lives u k D c' → c.Runs u k D
  | [], _, _, _ => trivial
  | _ :: D, c, c', ⟨h1, c1, h2, h3⟩ =>
    ⟨h1, fun c2 e => by rw [← may_step h2 e]; exact lives_runs D c1 c' h3⟩

theorem lives_play : ∀ (D : List WEv) (c c' c1 : Con), c.Lives u k D c' → c.play u k D = some c1 →
    c' = c1
  | [], c, c', c1, h, e => by cases e; exact h
  | ev :: D, c, c', c1, ⟨h1, c2, h2, h3⟩, e => by
    cases hs : c.step u k ev with
    | none => simp only [Con.play, hs, Option.bind_none] at e; cases e
    | some c3 =>
      simp only [Con.play, hs, Option.bind_some] at e
      rw [may_step h2 hs] at h3
      exact lives_play D c3 c' c1 h3 e

theorem play_lives : ∀ (D : List WEv) (c c' : Con), c.Runs u k D → c.play u k D = some c' →
    c.Lives u k D c'
  | [], c, c', _, e => by cases e; rfl
  | ev :: D, c, c', ⟨h1, h2⟩, e => by
    cases hs : c.step u k ev with
    | none => simp only [Con.play, hs, Option.bind_none] at e; cases e
    | some c3 =>
      simp only [Con.play, hs, Option.bind_some] at e
      refine ⟨h1, c3, ?_, play_lives D c3 c' (h2 c3 hs) e⟩
      unfold Con.May
      rw [hs]

/-- Buffers that agree in all that is not shown. -/
structure Kin (o o' : OutBuf) : Prop where
  size : o'.glyph.size = o.glyph.size
  word : o'.word = o.word
  window : WholeWindow o → o'.window = o.window

theorem Kin.refl (o : OutBuf) : Kin o o := ⟨rfl, rfl, fun _ => rfl⟩

theorem Kin.whole {o o' : OutBuf} (h : Kin o o') (hw : WholeWindow o) : WholeWindow o' := by
  have := h.window hw
  unfold WholeWindow at hw ⊢
  rw [this, h.size]; exact hw

theorem Kin.trans {a b c : OutBuf} (h : Kin a b) (h' : Kin b c) : Kin a c :=
  ⟨h'.size.trans h.size, h'.word.trans h.word,
    fun hw => (h'.window (h.whole hw)).trans (h.window hw)⟩

theorem outChar_kin {o o' : OutBuf} {ch : Char} (h : o.putChar u ch = some o') :
    Kin o o' ∧ o'.pend = o.pend := by
  unfold OutBuf.putChar at h
  split at h
  · unfold OutBuf.putControl at h
    split at h
    · cases h
    split at h
    · obtain ⟨p, -, rfl⟩ := Option.map_eq_some_iff.mp h
      exact ⟨⟨rfl, rfl, fun _ => rfl⟩, rfl⟩
    split at h
    · obtain ⟨p, -, h⟩ := Option.bind_eq_some_iff.mp h
      unfold OutBuf.lineFeed at h
      split at h
      · cases h
        refine ⟨⟨?_, rfl, fun _ => rfl⟩, rfl⟩
        unfold Term.newline
        dsimp only
        split <;> rfl
      · cases h
    · cases h
  · obtain ⟨g, hg, rfl⟩ := Option.map_eq_some_iff.mp h
    exact ⟨⟨(putChar_keeps hg).2, rfl, fun _ => rfl⟩, rfl⟩

theorem outText_kin : ∀ (s : List Char) (o o' : OutBuf), o.putText u s = some o' →
    Kin o o' ∧ o'.pend = o.pend
  | [], o, o', h => by cases h; exact ⟨.refl _, rfl⟩
  | ch :: s, o, o', h => by
    obtain ⟨o1, h1, h2⟩ := Option.bind_eq_some_iff.mp h
    obtain ⟨g1, g2⟩ := outChar_kin h1
    obtain ⟨k1, k2⟩ := outText_kin s o1 o' h2
    exact ⟨g1.trans k1, k2.trans g2⟩

/-- Writing, whatever the console makes of it. -/
theorem may_write {c c' : Con} {h n : Nat} {us : List (BitVec 16)} {o : OutBuf}
    (ho : c.outs h = some o) (e : c.May u k (.call (.write h us) (.wrote n)) c') :
    ∃ o', c' = c.setOut h o' ∧ Kin o o' ∧
      ∀ s p, decode16 (o.pend ++ us.take n) = some (s, p) → o'.pend = p := by
  unfold Con.May at e
  cases hs : c.step u k (.call (.write h us) (.wrote n)) with
  | some c1 =>
    rw [hs] at e
    subst e
    simp only [Con.step] at hs
    rw [onOut_some ho] at hs
    obtain ⟨o', hf, rfl⟩ := Option.map_eq_some_iff.mp hs
    unfold OutBuf.feed at hf
    obtain ⟨⟨s, p⟩, hd, hp⟩ := Option.bind_eq_some_iff.mp hf
    obtain ⟨g1, g2⟩ := outText_kin s _ _ hp
    refine ⟨o', rfl, ⟨g1.size, g1.word, fun hw => g1.window hw⟩, fun s' p' e => ?_⟩
    rw [hd] at e
    cases e
    exact g2
  | none =>
    rw [hs] at e
    obtain ⟨h', us', n', o1, o', e1, e2, e3, e4, e5, e6, e7⟩ := e
    cases e1
    rw [ho] at e2
    cases e2
    exact ⟨o', e3, ⟨e4, e5, e6⟩, e7⟩

theorem lives_haps {c c' : Con} {l : List WEv} (h : ∀ e ∈ l, IsHap e) (e : c.Lives u k l c') :
    ∃ q, c' = { c with queue := q } := by
  obtain ⟨q, hq⟩ := haps_play u k h c
  exact ⟨q, lives_play _ _ _ _ e hq⟩

/-! ## Consoles that change at any time -/

theorem shifts_refl (c : Con) : c.Shifts c := Or.inl rfl

theorem lives_shaken : ∀ (D : List WEv) (c c' : Con), c.Lives u k D c' → c.Shaken u k D c'
  | [], _, _, h => Or.inl h
  | _ :: D, c, c', ⟨h1, c1, h2, h3⟩ => ⟨c, .inl rfl, h1, c1, h2, lives_shaken D c1 c' h3⟩

theorem shaken_append : ∀ (a b : List WEv) (c c' : Con), c.Shaken u k (a ++ b) c' →
    ∃ c1, c.Shaken u k a c1 ∧ c1.Shaken u k b c'
  | [], b, c, c', h => ⟨c, .inl rfl, h⟩
  | e :: a, b, c, c', ⟨c0, h0, h1, c1, h2, h3⟩ => by
    obtain ⟨c2, g1, g2⟩ := shaken_append a b c1 c' h3
    exact ⟨c2, ⟨c0, h0, h1, c1, h2, g1⟩, g2⟩

/-- What holds of the console however it changes: the visible buffer is that of the screen, with an
attribute word and units of an unfinished character that are known. -/
def Lax (h : Nat) (wd : BitVec 16) (p : List (BitVec 16)) (c : Con) : Prop :=
  c.active = h ∧ ∃ o, c.outs h = some o ∧ o.word = wd ∧ o.pend = p ∧ SmallSize o.glyph.size ∧
    WholeWindow o

theorem lax_shift {h : Nat} {wd : BitVec 16} {p : List (BitVec 16)} {c c' : Con} (hc : Lax h wd p c)
    (e : c.Shifts c') : Lax h wd p c' := by
  rcases e with rfl | ⟨o0, o, q, e1, rfl, e2, e3, e4, e5⟩
  · exact hc
  · obtain ⟨rfl, o', h1, h2, h3, -, -⟩ := hc
    rw [h1] at e1
    cases e1
    exact ⟨rfl, o, setOut_outs _ _ _, e2.trans h2, e3.trans h3, e4.2, e5⟩

theorem Lax.queue {h : Nat} {wd : BitVec 16} {p : List (BitVec 16)} {c : Con} (hc : Lax h wd p c)
    (q : List InRec) : Lax h wd p { c with queue := q } := hc

theorem lax_haps {h : Nat} {wd : BitVec 16} {p : List (BitVec 16)} : ∀ (l : List WEv) (c c' : Con),
    (∀ e ∈ l, IsHap e) → Lax h wd p c → c.Shaken u k l c' → Lax h wd p c'
  | [], _, _, _, hc, e => lax_shift hc e
  | ev :: l, c, c', hl, hc, ⟨c0, e1, _, c1, e3, e4⟩ => by
    obtain ⟨q, hq⟩ := haps_play u k (l := [ev]) (by simpa using hl ev (List.mem_cons_self ..)) c0
    rw [con_play_one] at hq
    rw [may_step e3 hq] at e4
    exact lax_haps l _ c' (fun e he => hl e (List.mem_cons_of_mem _ he)) ((lax_shift hc e1).queue q) e4

/-- The console just before and just after a call. -/
theorem lax_call {h : Nat} {wd : BitVec 16} {p : List (BitVec 16)} {evs D : List WEv} {ev : WEv}
    {c c' : Con} (he : ∀ e ∈ evs, IsHap e) (hc : Lax h wd p c)
    (e : c.Shaken u k (evs ++ ([ev] ++ D)) c') :
    ∃ c0 c1, Lax h wd p c0 ∧ c0.Possible k ev ∧ c0.May u k ev c1 ∧ c1.Shaken u k D c' := by
  obtain ⟨c2, e1, c0, e2, e3, c1, e4, e5⟩ := shaken_append _ _ _ _ e
  exact ⟨c0, c1, lax_shift (lax_haps _ _ _ he hc e1) e2, e3, e4, e5⟩

/-- Calls that change nothing but the cells and the cursor. -/
def CellCall (h : Nat) : ConCall → Prop
  | .setCursorPos h' _ | .fillAttr h' _ _ _ | .fillChar h' _ _ _ => h' = h
  | _ => False

theorem lax_cellCall {h : Nat} {wd : BitVec 16} {p : List (BitVec 16)} {c c' : Con} {cc : ConCall}
    (hcc : CellCall h cc) (hc : Lax h wd p c) (e : c.May u k (.call cc .ok) c') : Lax h wd p c' := by
  obtain ⟨h0, o, h1, h2, h3, h4, h5⟩ := hc
  have key : ∀ o', c.step u k (.call cc .ok) = some (c.setOut h o') → o'.word = o.word →
      o'.pend = o.pend → o'.glyph.size = o.glyph.size → o'.window = o.window → Lax h wd p c' := by
    intro o' hs k1 k2 k3 k4
    rw [may_step e hs]
    refine ⟨h0, o', setOut_outs _ _ _, k1.trans h2, k2.trans h3, by rw [k3]; exact h4, ?_⟩
    unfold WholeWindow at h5 ⊢
    rw [k3, k4]; exact h5
  cases cc with
  | setCursorPos h' q =>
    cases hcc
    exact key { o with glyph := { o.glyph with cur := some (coordToCursor q), last := none } }
      (by simp only [Con.step]; rw [onOut_some h1]; rfl) rfl rfl rfl rfl
  | fillAttr h' w n q =>
    cases hcc
    exact key (o.fillAttr w n.toNat q) (by simp only [Con.step]; rw [onOut_some h1]; rfl) rfl rfl rfl rfl
  | fillChar h' ch n q =>
    cases hcc
    by_cases hw : u.w ch = 1
    · exact key (o.fillChar ch n.toNat q)
        (by simp only [Con.step]; rw [onOut_some h1, if_pos hw]; rfl) rfl rfl rfl rfl
    · unfold Con.May at e
      have hs : c.step u k (.call (.fillChar h ch n q) .ok) = none := by
        simp only [Con.step]; rw [onOut_some h1, if_neg hw]; rfl
      rw [hs] at e
      obtain ⟨_, _, _, _, _, e1, -⟩ := e
      cases e1
  | _ => exact hcc.elim

/-- The same as part of the code, successful or not. -/
theorem lax_bool {h : Nat} {wd : BitVec 16} {p : List (BitVec 16)} {c c' : Con} {cc : ConCall}
    {s s' : WinSt} {D : List WEv} (hcc : CellCall h cc) (hc : Lax h wd p c)
    (e : (∃ a, boolCall cc s = .ok a s') ∨ ∃ er, boolCall cc s = .err er s')
    (hl : s'.log = s.log ++ D) (hr : c.Shaken u k D c') : Lax h wd p c' ∧ SameTerm s s' := by
  have main : ∀ a s1, conCall cc s = .ok a s1 → s1 = s' → a = .ok ∨ a = .fail →
      Lax h wd p c' ∧ SameTerm s s' := by
    rintro a s1 h1 rfl ha
    obtain ⟨evs, g1, g2, g3, -⟩ := conCall_ok h1
    have hD : D = evs ++ ([.call cc a] ++ []) := by
      rw [g2, List.append_assoc] at hl
      rw [List.append_nil]
      exact (List.append_cancel_left hl).symm
    subst hD
    obtain ⟨c0, c1, k1, k2, k3, k4⟩ := lax_call g1 hc hr
    refine ⟨lax_shift ?_ k4, g3⟩
    rcases ha with rfl | rfl
    · exact lax_cellCall hcc k1 k3
    · rw [may_step k3 (c1 := c0) rfl]; exact k1
  unfold boolCall at e
  rcases e with ⟨_, e⟩ | ⟨_, e⟩
  · obtain ⟨a, s1, h1, h2⟩ := sm_bind_ok e
    cases a <;> cases h2
    exact main _ _ h1 rfl (Or.inl rfl)
  · rcases sm_bind_err e with e | ⟨a, s1, h1, h2⟩
    · exact absurd e conCall_not_err
    · cases a <;> cases h2
      exact main _ _ h1 rfl (Or.inr rfl)

theorem lax_moveAbs {wd : BitVec 16} {p : List (BitVec 16)} {c c' : Con} {q : Coord}
    {s s' : WinSt} {D : List WEv} (hc : Lax s.outH wd p c)
    (e : (∃ a, moveAbs q s = .ok a s') ∨ ∃ er, moveAbs q s = .err er s')
    (hl : s'.log = s.log ++ D) (hr : c.Shaken u k D c') : Lax s.outH wd p c' ∧ SameTerm s s' := by
  unfold moveAbs at e
  rw [sm_bind, sm_get] at e
  exact lax_bool (cc := .setCursorPos s.outH q) rfl hc e hl hr

theorem split_log {s s1 s' : WinSt} {D D1 D2 : List WEv} (h : s'.log = s.log ++ D)
    (h1 : s1.log = s.log ++ D1) (h2 : s'.log = s1.log ++ D2) : D = D1 ++ D2 := by
  rw [h2, h1, List.append_assoc] at h
  exact (List.append_cancel_left h).symm

theorem lax_clearArea {wd : BitVec 16} {p : List (BitVec 16)} {c c' : Con} {q : Coord} {n : BitVec 32}
    {s s' : WinSt} {D : List WEv} (hc : Lax s.outH wd p c)
    (e : (∃ a, clearArea wt q n s = .ok a s') ∨ ∃ er, clearArea wt q n s = .err er s')
    (hl : s'.log = s.log ++ D) (hr : c.Shaken u k D c') : Lax s.outH wd p c' ∧ SameTerm s s' := by
  unfold clearArea at e
  rw [sm_bind, sm_get] at e
  dsimp only at e
  have main : ∀ (s1 : WinSt), (∃ a, boolCall (.fillAttr s.outH wt.defAttrs n q) s = .ok a s1) →
      ((∃ a, boolCall (.fillChar s.outH ' ' n q) s1 = .ok a s') ∨
        ∃ er, boolCall (.fillChar s.outH ' ' n q) s1 = .err er s') →
      Lax s.outH wd p c' ∧ SameTerm s s' := by
    rintro s1 ⟨a, e1⟩ e2
    obtain ⟨D1, l1⟩ := (grows_boolCall _ s).1 _ _ e1
    obtain ⟨D2, l2⟩ : ∃ D2, s'.log = s1.log ++ D2 := by
      rcases e2 with ⟨b, e2⟩ | ⟨er, e2⟩
      · exact (grows_boolCall _ s1).1 _ _ e2
      · exact (grows_boolCall _ s1).2 _ _ e2
    obtain rfl := split_log hl l1 l2
    obtain ⟨c1, r1, r2⟩ := shaken_append _ _ _ _ hr
    obtain ⟨k1, k2⟩ := lax_bool (h := s.outH) (cc := .fillAttr s.outH wt.defAttrs n q) rfl hc
      (Or.inl ⟨a, e1⟩) l1 r1
    obtain ⟨k3, k4⟩ := lax_bool (h := s.outH) (cc := .fillChar s.outH ' ' n q) rfl k1 e2 l2 r2
    exact ⟨k3, k2.trans k4⟩
  rcases e with ⟨a, e⟩ | ⟨er, e⟩
  · obtain ⟨b, s1, h1, h2⟩ := sm_bind_ok e
    exact main s1 ⟨b, h1⟩ (Or.inl ⟨a, h2⟩)
  · rcases sm_bind_err e with e | ⟨b, s1, h1, h2⟩
    · exact lax_bool (h := s.outH) (cc := .fillAttr s.outH wt.defAttrs n q) rfl hc (Or.inr ⟨er, e⟩) hl hr
    · exact main s1 ⟨b, h1⟩ (Or.inr ⟨er, h2⟩)

theorem short_in {n : Int} (h1 : -32768 ≤ n) (h2 : n ≤ 32767) : short n = some n := by
  unfold short
  rw [if_pos (by unfold IsShort; omega)]

/-- Clearing, while the buffer may change at any time. -/
theorem lax_clearScreen {wd : BitVec 16} {p : List (BitVec 16)} {c c' : Con} {s s' : WinSt}
    {D : List WEv} (hc : Lax s.outH wd p c)
    (e : (∃ a, winClearScreen wt s = .ok a s') ∨ ∃ er, winClearScreen wt s = .err er s')
    (hl : s'.log = s.log ++ D) (hr : c.Shaken u k D c') : Lax s.outH wd p c' ∧ SameTerm s s' := by
  unfold winClearScreen consoleInfo at e
  rw [sm_bind, sm_get] at e
  dsimp only at e
  have e' : ∃ an s1, conCall (.getInfo s.outH) s = .ok an s1 ∧ ((an = .fail ∧ s' = s1) ∨
      ∃ i, an = .info i ∧ ((∃ a, (do
        let ht ← SM.ofPanics (short (i.window.bottom - i.window.top))
        let ht ← SM.ofPanics (short (ht + 1))
        if ht = i.size.y then
          let n ← SM.ofPanics (wholeCount i.size)
          clearArea wt ⟨0, 0⟩ n
          moveAbs ⟨i.window.left, i.window.top⟩
        else
          let b1 ← SM.ofPanics (short (i.window.bottom + 1))
          let max ← SM.ofPanics (short (i.size.y - b1))
          let c1 ← SM.ofPanics (short (i.cursor.y + 1))
          let dist ← SM.ofPanics (short (c1 - i.window.top))
          let down := min dist max
          let win ← moveWindow s.outH i.window down
          let clear ← SM.ofPanics (short (win.bottom - i.cursor.y))
          SM.when (clear < ht) do
            let d ← SM.ofPanics (short (ht - clear))
            boolCall (.scroll s.outH ⟨0, d, i.size.x, i.cursor.y⟩ ⟨0, 0⟩)
          moveAbs ⟨win.left, win.top⟩ : WM Unit) s1 = .ok a s') ∨ ∃ er, (do
        let ht ← SM.ofPanics (short (i.window.bottom - i.window.top))
        let ht ← SM.ofPanics (short (ht + 1))
        if ht = i.size.y then
          let n ← SM.ofPanics (wholeCount i.size)
          clearArea wt ⟨0, 0⟩ n
          moveAbs ⟨i.window.left, i.window.top⟩
        else
          let b1 ← SM.ofPanics (short (i.window.bottom + 1))
          let max ← SM.ofPanics (short (i.size.y - b1))
          let c1 ← SM.ofPanics (short (i.cursor.y + 1))
          let dist ← SM.ofPanics (short (c1 - i.window.top))
          let down := min dist max
          let win ← moveWindow s.outH i.window down
          let clear ← SM.ofPanics (short (win.bottom - i.cursor.y))
          SM.when (clear < ht) do
            let d ← SM.ofPanics (short (ht - clear))
            boolCall (.scroll s.outH ⟨0, d, i.size.x, i.cursor.y⟩ ⟨0, 0⟩)
          moveAbs ⟨win.left, win.top⟩ : WM Unit) s1 = .err er s')) := by
    rcases e with ⟨a, e⟩ | ⟨er, e⟩
    · obtain ⟨i, s2, e1, e2⟩ := sm_bind_ok e
      obtain ⟨an, s1, h1, h2⟩ := sm_bind_ok e1
      cases an <;> cases h2
      exact ⟨_, _, h1, Or.inr ⟨i, rfl, Or.inl ⟨a, e2⟩⟩⟩
    · rcases sm_bind_err e with e1 | ⟨i, s2, e1, e2⟩
      · rcases sm_bind_err e1 with e1 | ⟨an, s1, h1, h2⟩
        · exact absurd e1 conCall_not_err
        · cases an <;> cases h2
          exact ⟨_, _, h1, Or.inl ⟨rfl, rfl⟩⟩
      · obtain ⟨an, s1, h1, h2⟩ := sm_bind_ok e1
        cases an <;> cases h2
        exact ⟨_, _, h1, Or.inr ⟨i, rfl, Or.inr ⟨er, e2⟩⟩⟩
  clear e
  obtain ⟨an, s1, h1, h2⟩ := e'
  obtain ⟨evs, g1, g2, g3, -⟩ := conCall_ok h1
  rcases h2 with ⟨rfl, rfl⟩ | ⟨i, rfl, h2⟩
  · have hD : D = evs ++ ([.call (.getInfo s.outH) .fail] ++ []) := by
      rw [g2, List.append_assoc] at hl
      rw [List.append_nil]
      exact (List.append_cancel_left hl).symm
    subst hD
    obtain ⟨c0, c1, k1, k2, k3, k4⟩ := lax_call g1 hc hr
    rw [may_step k3 (c1 := c0) rfl] at k4
    exact ⟨lax_shift k1 k4, g3⟩
  · have step : ∀ D2, s'.log = s1.log ++ D2 → ∃ c1, Lax s.outH wd p c1 ∧ c1.Shaken u k D2 c' ∧
        ∃ o, o.Tells i ∧ SmallSize o.glyph.size ∧ WholeWindow o := by
      intro D2 l2
      have hD : D = evs ++ ([.call (.getInfo s.outH) (.info i)] ++ D2) := by
        rw [l2, g2] at hl
        simp only [List.append_assoc] at hl ⊢
        exact (List.append_cancel_left hl).symm
      subst hD
      obtain ⟨c0, c1, k1, k2, k3, k4⟩ := lax_call g1 hc hr
      rw [may_step k3 (c1 := c0) rfl] at k4
      refine ⟨c0, k1, k4, ?_⟩
      obtain ⟨-, o, m1, -, -, m4, m5⟩ := k1
      rcases k2 with k2 | ⟨o', i', n1, n2, n3⟩
      · cases k2
      · cases n3
        rw [m1] at n1
        cases n1
        exact ⟨o, n2, m4, m5⟩
    have hgrow : ∃ D2, s'.log = s1.log ++ D2 := by
      have hg : Grows (do
        let ht ← SM.ofPanics (short (i.window.bottom - i.window.top))
        let ht ← SM.ofPanics (short (ht + 1))
        if ht = i.size.y then
          let n ← SM.ofPanics (wholeCount i.size)
          clearArea wt ⟨0, 0⟩ n
          moveAbs ⟨i.window.left, i.window.top⟩
        else
          let b1 ← SM.ofPanics (short (i.window.bottom + 1))
          let max ← SM.ofPanics (short (i.size.y - b1))
          let c1 ← SM.ofPanics (short (i.cursor.y + 1))
          let dist ← SM.ofPanics (short (c1 - i.window.top))
          let down := min dist max
          let win ← moveWindow s.outH i.window down
          let clear ← SM.ofPanics (short (win.bottom - i.cursor.y))
          SM.when (clear < ht) do
            let d ← SM.ofPanics (short (ht - clear))
            boolCall (.scroll s.outH ⟨0, d, i.size.x, i.cursor.y⟩ ⟨0, 0⟩)
          moveAbs ⟨win.left, win.top⟩) := by
        unfold clearArea moveAbs moveWindow SM.when; grows_tac
      rcases h2 with ⟨a, h2⟩ | ⟨er, h2⟩
      · exact (hg s1).1 _ _ h2
      · exact (hg s1).2 _ _ h2
    obtain ⟨D2, l2⟩ := hgrow
    obtain ⟨c1, k1, k2, o, ⟨t1, -, -, -, t5⟩, hsm, w1, w2, w3⟩ := step D2 l2
    obtain ⟨z1, z2⟩ := hsm
    have hy : i.size.y = o.glyph.size.lines := by rw [t1]; rfl
    rw [← g3.outH] at k1
    rw [t5, short_in (n := o.window.bottom - o.window.top) (by omega) (by omega)] at h2
    simp only [sm_bind, sm_ofPanics_some] at h2
    rw [short_in (n := o.window.bottom - o.window.top + 1) (by omega) (by omega)] at h2
    simp only [sm_ofPanics_some] at h2
    rw [if_pos (by rw [hy]; omega)] at h2
    have fin : ∀ n : BitVec 32, ((∃ a, (clearArea wt ⟨0, 0⟩ n >>= fun _ =>
        moveAbs ⟨o.window.left, o.window.top⟩) s1 = .ok a s') ∨
        ∃ er, (clearArea wt ⟨0, 0⟩ n >>= fun _ => moveAbs ⟨o.window.left, o.window.top⟩) s1 = .err er s') →
        Lax s.outH wd p c' ∧ SameTerm s s' := by
      intro n h
      have main : ∀ s2, (∃ b, clearArea wt ⟨0, 0⟩ n s1 = .ok b s2) →
          ((∃ a, moveAbs ⟨o.window.left, o.window.top⟩ s2 = .ok a s') ∨
            ∃ er, moveAbs ⟨o.window.left, o.window.top⟩ s2 = .err er s') →
          Lax s.outH wd p c' ∧ SameTerm s s' := by
        rintro s2 ⟨b, e1⟩ e2
        have hg : Grows (clearArea wt ⟨0, 0⟩ n) := by unfold clearArea; grows_tac
        obtain ⟨D3, l3⟩ := (hg s1).1 _ _ e1
        obtain ⟨D4, l4⟩ : ∃ D4, s'.log = s2.log ++ D4 := by
          rcases e2 with ⟨a, e2⟩ | ⟨er, e2⟩
          · exact (grows_moveAbs _ s2).1 _ _ e2
          · exact (grows_moveAbs _ s2).2 _ _ e2
        obtain rfl := split_log l2 l3 l4
        obtain ⟨c3, r1, r2⟩ := shaken_append _ _ _ _ k2
        obtain ⟨m1, m2⟩ := lax_clearArea k1 (Or.inl ⟨b, e1⟩) l3 r1
        rw [← m2.outH] at m1
        obtain ⟨m3, m4⟩ := lax_moveAbs m1 e2 l4 r2
        rw [m2.outH, g3.outH] at m3
        exact ⟨m3, g3.trans (m2.trans m4)⟩
      rcases h with ⟨a, h⟩ | ⟨er, h⟩
      · obtain ⟨b, s2, e1, e2⟩ := sm_bind_ok h
        exact main s2 ⟨b, e1⟩ (Or.inl ⟨a, e2⟩)
      · rcases sm_bind_err h with h | ⟨b, s2, e1, e2⟩
        · obtain ⟨m1, m2⟩ := lax_clearArea k1 (Or.inr ⟨er, h⟩) l2 k2
          rw [g3.outH] at m1
          exact ⟨m1, g3.trans m2⟩
        · exact main s2 ⟨b, e1⟩ (Or.inr ⟨er, e2⟩)
    cases hw : wholeCount i.size with
    | none =>
      rw [hw] at h2
      rcases h2 with ⟨a, h2⟩ | ⟨er, h2⟩ <;> cases h2
    | some n =>
      rw [hw] at h2
      exact fin n h2

theorem lax_setAttributes {th : Theme} {p : List (BitVec 16)} {c c' : Con} {s s' : WinSt} {a : Unit}
    {D : List WEv} (hc : Lax s.outH (themeWord wt s.theme) p c)
    (e : winSetAttributes wt th s = .ok a s') (hl : s'.log = s.log ++ D) (hr : c.Shaken u k D c') :
    Lax s.outH (themeWord wt s'.theme) p c' ∧ s'.outH = s.outH := by
  unfold winSetAttributes updateAttrs boolCall at e
  rw [sm_bind, sm_get] at e
  dsimp only at e
  split at e
  · rw [sm_bind, sm_modify] at e
    dsimp only at e
    rw [sm_bind, sm_get] at e
    dsimp only at e
    obtain ⟨an, s1, h1, h2⟩ := sm_bind_ok e
    obtain ⟨evs, g1, g2, g3, -⟩ := conCall_ok h1
    cases an <;> cases h2
    have g2 : s'.log = s.log ++ evs ++ _ := g2
    have hD : D = evs ++ ([.call (.setAttr s.outH (themeWord wt th)) .ok] ++ []) := by
      rw [g2, List.append_assoc] at hl
      rw [List.append_nil]
      exact (List.append_cancel_left hl).symm
    subst hD
    obtain ⟨c0, c1, ⟨k0, o, k1, -, k3, k4, k5⟩, m2, m3, m4⟩ := lax_call g1 hc hr
    have hs : c0.step u k (.call (.setAttr s.outH (themeWord wt th)) .ok) =
        some (c0.setOut s.outH { o with word := themeWord wt th }) := by
      simp only [Con.step]; rw [onOut_some k1]; rfl
    rw [may_step m3 hs] at m4
    have hth : s'.theme = th := g3.theme
    rw [hth]
    exact ⟨lax_shift (c := c0.setOut s.outH { o with word := themeWord wt th })
      ⟨k0, _, setOut_outs _ _ _, rfl, k3, k4, k5⟩ m4, g3.outH⟩
  · cases e
    have hD : D = [] := by simpa using hl
    subst hD
    exact ⟨lax_shift hc hr, rfl⟩

theorem lax_writeLoop (h : Nat) (wd : BitVec 16) : ∀ (f : Nat) (buf : List (BitVec 16)) (s s' : WinSt)
    (D : List WEv) (c c' : Con) (p : List (BitVec 16)), writeLoop h f buf s = .ok () s' →
    s'.log = s.log ++ D → c.Shaken u k D c' → Lax h wd p c →
    (∃ t, decode16 (p ++ buf) = some (t, [])) → decode16 p = some ([], p) →
    Lax h wd [] c' ∧ SameTerm s s'
  | f, [], s, s', D, c, c', p, e, hl, hr, hc, ⟨t, ht⟩, hp => by
    have e : SRes.ok () s = .ok () s' := by
      unfold writeLoop at e
      cases f <;> exact e
    cases e
    have hD : D = [] := by simpa using hl
    subst hD
    rw [List.append_nil, hp] at ht
    have hpe : p = [] := by
      have := congrArg (Option.map Prod.snd) ht
      simpa using this
    subst hpe
    exact ⟨lax_shift hc hr, .refl _⟩
  | 0, a :: buf, s, s', D, c, c', p, e, hl, hr, hc, ht, hp => by
    unfold writeLoop at e
    rw [if_pos (by simp)] at e
    cases e
  | f + 1, a :: buf, s, s', D, c, c', p, e, hl, hr, hc, ⟨t, ht⟩, hp => by
    unfold writeLoop at e
    rw [if_pos (by simp)] at e
    obtain ⟨an, s1, h1, h2⟩ := sm_bind_ok e
    obtain ⟨evs, g1, g2, g3, -⟩ := conCall_ok h1
    cases an with
    | wrote n =>
      dsimp only at h2
      obtain ⟨D2, l2⟩ := (grows_writeLoop h f ((a :: buf).drop n) s1).1 () s' h2
      have hD : D = evs ++ ([.call (.write h ((a :: buf).take (toDword (a :: buf).length).toNat)) (.wrote n)] ++ D2) := by
        rw [l2, g2] at hl
        simp only [List.append_assoc] at hl ⊢
        exact (List.append_cancel_left hl).symm
      subst hD
      obtain ⟨c0, c1, ⟨k0, o, m1, m2, rfl, m4, m5⟩, pos, r3, r4⟩ := lax_call g1 hc hr
      obtain ⟨o1, rfl, k1, k2⟩ := may_write m1 r3
      have hn : n ≤ ((a :: buf).take (toDword (a :: buf).length).toNat).length := by
        rcases pos with pos | ⟨_, m, -, hm, pos⟩
        · cases pos
        · cases pos; exact hm
      have htake : ((a :: buf).take (toDword (a :: buf).length).toNat).take n = (a :: buf).take n := by
        rw [List.take_take, Nat.min_eq_left]
        rw [List.length_take] at hn
        omega
      rw [htake] at k2
      have hsp : decode16 (o.pend ++ (a :: buf).take n ++ (a :: buf).drop n) = some (t, []) := by
        rw [List.append_assoc, List.take_append_drop]; exact ht
      rw [decode16_append] at hsp
      obtain ⟨⟨sx, px⟩, hx1, hx2⟩ := Option.bind_eq_some_iff.mp hsp
      have hpx := k2 sx px hx1
      obtain ⟨⟨sy, py⟩, hy1, hy2⟩ := Option.map_eq_some_iff.mp hx2
      have hpy : py = [] := by
        have := congrArg Prod.snd hy2
        exact this
      subst hpy
      obtain ⟨k3, k4⟩ := lax_writeLoop h wd f ((a :: buf).drop n) s1 s' D2 _ c' px h2 l2 r4
        ⟨k0, o1, setOut_outs _ _ _, k1.word.trans m2, hpx, by rw [k1.size]; exact m4, k1.whole m5⟩
        ⟨sy, hy1⟩ (decode16_settled hx1)
      exact ⟨k3, g3.trans k4⟩
    | _ => cases h2
  termination_by f => f

theorem lax_mute {h : Nat} {wd : BitVec 16} : ∀ (D : List WEv) (c c' : Con), Lax h wd [] c →
    (∀ ev ∈ D, MuteCall h ev) → c.Shaken u k D c' → Lax h wd [] c'
  | [], _, _, hc, _, e => lax_shift hc e
  | ev :: D, c, c', hc, hm, ⟨c0, e1, e2, c1, e3, e4⟩ => by
    have hc0 := lax_shift hc e1
    obtain ⟨-, o, h1, -, h3, -⟩ := id hc0
    obtain ⟨q, hq⟩ := muteCall_play (u := u) (k := k) h3 [ev] c0 h1
      (by simpa using hm ev (List.mem_cons_self ..))
    rw [con_play_one] at hq
    rw [may_step e3 hq] at e4
    exact lax_mute D _ c' (hc0.queue q) (fun e he => hm e (List.mem_cons_of_mem _ he)) e4

/-! ## Screens that have lost track of the console -/

/-- What holds of the console however it changes. -/
structure Loose (wt : WTerm) (x : WScr) (c : Con) (o : OutBuf) : Prop where
  out : c.outs x.w.outH = some o
  active : c.active = x.w.outH
  word : o.word = themeWord wt x.w.theme
  pend : o.pend = []
  small : SmallSize o.glyph.size
  whole : WholeWindow o

theorem Loose.lax {x : WScr} {c : Con} {o : OutBuf} (h : Loose wt x c o) :
    Lax x.w.outH (themeWord wt x.w.theme) [] c :=
  ⟨h.active, o, h.out, h.word, h.pend, h.small, h.whole⟩

theorem Lax.loose {x : WScr} {c : Con} (h : Lax x.w.outH (themeWord wt x.w.theme) [] c) :
    ∃ o, Loose wt x c o := by
  obtain ⟨h1, o, h2, h3, h4, h5, h6⟩ := h
  exact ⟨o, h2, h1, h3, h4, h5, h6⟩

theorem Lax.same {s s' : WinSt} {c : Con} (h : Lax s.outH (themeWord wt s.theme) [] c)
    (e : SameTerm s s') : Lax s'.outH (themeWord wt s'.theme) [] c := by
  rw [e.outH, e.theme]; exact h

/-- What a refresh leaves of the screen. -/
structure Drift (x x' : WScr) : Prop where
  buf : x'.buf = x.buf.wb x'.buf.back
  len : x'.buf.back.length = x.buf.back.length
  clear : x'.clear = x.clear

theorem Drift.refl (x : WScr) : Drift x x := ⟨rfl, rfl, rfl⟩

theorem Drift.trans {a b c : WScr} (h : Drift a b) (h' : Drift b c) : Drift a c :=
  ⟨by rw [h'.buf, h.buf]; rfl, h'.len.trans h.len, h'.clear.trans h.clear⟩

theorem Drift.data {x x' : WScr} (h : x'.toSData = x.toSData) : Drift x x' := by
  have hb : x'.buf = x.buf := congrArg SData.buf h
  exact ⟨by rw [hb]; rfl, by rw [hb], congrArg SData.clear h⟩

/-- Code that keeps to this, if it is successful or fails after mild calls. -/
structure Floats {α : Type} (u : UEnv) (k : Nat) (wt : WTerm) (m : SWM α) : Prop where
  ok : ∀ x c o a x' D c', Loose wt x c o → m x = .ok a x' → x'.w.log = x.w.log ++ D →
    c.Shaken u k D c' → (∃ o', Loose wt x' c' o') ∧ Drift x x'
  err : ∀ x c o e x' D c', Loose wt x c o → m x = .err e x' → x'.w.log = x.w.log ++ D →
    c.Shaken u k D c' → (∀ ev ∈ D, MildCall ev) → (∃ o', Loose wt x' c' o') ∧ Drift x x'

theorem Floats.bind {α β : Type} {m : SWM α} {f : α → SWM β} (h : Floats u k wt m) (hg : SGrows m)
    (hf : ∀ a, Floats u k wt (f a)) (hg1 : ∀ a, SGrows (f a)) (hg2 : ∀ a, SGrowsE (f a)) :
    Floats u k wt (m >>= f) := by
  have split : ∀ {x x1 x' : WScr} {D D1 D2 : List WEv}, x'.w.log = x.w.log ++ D →
      x1.w.log = x.w.log ++ D1 → x'.w.log = x1.w.log ++ D2 → D = D1 ++ D2 := by
    intro x x1 x' D D1 D2 h h1 h2
    rw [h2, h1, List.append_assoc] at h
    exact (List.append_cancel_left h).symm
  constructor
  · intro x c o b x' D c' hL e hl hr
    obtain ⟨a, x1, e1, e2⟩ := sm_bind_ok e
    obtain ⟨D1, l1⟩ := hg _ _ _ e1
    obtain ⟨D2, l2⟩ := hg1 _ _ _ _ e2
    obtain rfl := split hl l1 l2
    obtain ⟨c1, r1, r2⟩ := shaken_append _ _ _ _ hr
    obtain ⟨⟨o1, q1⟩, q2⟩ := h.ok x c o a x1 D1 c1 hL e1 l1 r1
    obtain ⟨q3, q4⟩ := (hf a).ok x1 c1 o1 b x' D2 c' q1 e2 l2 r2
    exact ⟨q3, q2.trans q4⟩
  · intro x c o er x' D c' hL e hl hr hm
    rcases sm_bind_err e with e | ⟨a, x1, e1, e2⟩
    · exact h.err x c o er x' D c' hL e hl hr hm
    · obtain ⟨D1, l1⟩ := hg _ _ _ e1
      obtain ⟨D2, l2⟩ := hg2 _ _ _ _ e2
      obtain rfl := split hl l1 l2
      obtain ⟨c1, r1, r2⟩ := shaken_append _ _ _ _ hr
      obtain ⟨⟨o1, q1⟩, q2⟩ := h.ok x c o a x1 D1 c1 hL e1 l1 r1
      obtain ⟨q3, q4⟩ := (hf a).err x1 c1 o1 er x' D2 c' q1 e2 l2 r2
        (fun ev hev => hm ev (List.mem_append_right _ hev))
      exact ⟨q3, q2.trans q4⟩

theorem Floats.pure {α : Type} (a : α) : Floats u k wt (pure a : SWM α) := by
  constructor
  · intro x c o b x' D c' hL e hl hr
    cases e
    have hD : D = [] := by simpa using hl
    subst hD
    exact ⟨(lax_shift hL.lax hr).loose, .refl _⟩
  · intro x c o b x' D c' hL e; cases e

theorem Floats.get : Floats u k wt (SM.get : SWM WScr) := by
  constructor
  · intro x c o b x' D c' hL e hl hr
    cases e
    have hD : D = [] := by simpa using hl
    subst hD
    exact ⟨(lax_shift hL.lax hr).loose, .refl _⟩
  · intro x c o b x' D c' hL e; cases e

theorem Floats.halt {α : Type} (w : Stop) : Floats u k wt (SM.halt w : SWM α) := by
  constructor
  · intro x c o b x' D c' hL e; cases e
  · intro x c o b x' D c' hL e; cases e

theorem Floats.ofPanics {α : Type} (y : Panics α) : Floats u k wt (SM.ofPanics y : SWM α) := by
  cases y with
  | none =>
    constructor
    · intro x c o b x' D c' hL e; cases e
    · intro x c o b x' D c' hL e; cases e
  | some a => exact Floats.pure a

theorem Floats.modify {f : WScr → WScr} (hw : ∀ x, (f x).w = x.w) (hd : ∀ x, Drift x (f x)) :
    Floats u k wt (SM.modify f) := by
  constructor
  · intro x c o b x' D c' hL e hl hr
    cases e
    have hD : D = [] := by rw [hw] at hl; simpa using hl
    subst hD
    refine ⟨Lax.loose ?_, hd x⟩
    rw [hw]; exact lax_shift hL.lax hr
  · intro x c o b x' D c' hL e; cases e

theorem floats_setAttrs (th : Theme) : Floats u k wt (onT (winSetAttributes wt th)) := by
  constructor
  · intro x c o a x' D c' hL e hl hr
    obtain ⟨e1, e2⟩ := onT_ok e
    obtain ⟨h1, h2⟩ := lax_setAttributes hL.lax e1 hl hr
    rw [← h2] at h1
    exact ⟨h1.loose, .data e2⟩
  · intro x c o er x' D c' hL e hl hr hm
    obtain ⟨e1, -⟩ := onT_err e
    obtain ⟨h, w, hmem⟩ := setAttributes_err e1 hl
    exact absurd rfl (hm _ hmem)

theorem floats_apply (a b : Theme) : Floats u k wt (applyAttrs wt a b) := by
  unfold applyAttrs
  split
  · exact floats_setAttrs _
  · exact Floats.pure _

theorem floats_winMove (p : Cursor) : Floats u k wt (onT (winMoveCursor p)) := by
  unfold winMoveCursor
  constructor
  · intro x c o a x' D c' hL e hl hr
    obtain ⟨e1, e2⟩ := onT_ok e
    obtain ⟨h1, h2⟩ := lax_moveAbs hL.lax (Or.inl ⟨a, e1⟩) hl hr
    exact ⟨(h1.same h2).loose, .data e2⟩
  · intro x c o er x' D c' hL e hl hr hm
    obtain ⟨e1, e2⟩ := onT_err e
    obtain ⟨h1, h2⟩ := lax_moveAbs hL.lax (Or.inr ⟨er, e1⟩) hl hr
    exact ⟨(h1.same h2).loose, .data e2⟩

theorem floats_move (p : Cursor) : Floats u k wt (wsMoveCursor p) := by
  unfold wsMoveCursor
  refine Floats.bind .get .get (fun _ => ?_) (fun _ => ?_) (fun _ => ?_)
  · split
    · exact Floats.bind (floats_winMove p) (.onT (grows_moveAbs _))
        (fun _ => .modify (fun _ => rfl) fun _ => ⟨rfl, rfl, rfl⟩)
        (fun _ => .modify fun _ => rfl) (fun _ => .modify)
    · exact Floats.pure _
  · split
    · exact SGrows.bind (.onT (grows_moveAbs _)) fun _ => .modify fun _ => rfl
    · exact SGrows.pure _
  · split
    · exact SGrowsE.bind (.onT (grows_moveAbs _)) (.onT (grows_moveAbs _)) fun _ => .modify
    · exact SGrowsE.pure _

theorem floats_write (s : List Char) : Floats u k wt (onT (winWriteStr s)) := by
  constructor
  · intro x c o a x' D c' hL e hl hr
    obtain ⟨e1, e2⟩ := onT_ok e
    unfold winWriteStr at e1
    rw [sm_bind, sm_get] at e1
    dsimp only at e1
    obtain ⟨h1, h2⟩ := lax_writeLoop x.w.outH _ _ _ _ _ D c c' [] e1 hl hr hL.lax
      ⟨s, decode16_text s⟩ decode16_nil
    exact ⟨(h1.same h2).loose, .data e2⟩
  · intro x c o er x' D c' hL e hl hr hm
    obtain ⟨e1, e2⟩ := onT_err e
    unfold winWriteStr at e1
    rw [sm_bind, sm_get] at e1
    dsimp only at e1
    obtain ⟨g1, g2⟩ := writeLoop_mute _ _ _ _ _ _ _ e1 hl hm
    exact ⟨((lax_mute D c c' hL.lax g1 hr).same g2).loose, .data e2⟩

theorem floats_drawCell (src : Theme) (p : Cursor) (c : Cell) :
    Floats u k wt (wsDrawCell wt src p c) := by
  unfold wsDrawCell
  have g1 : SGrows (SM.get >>= fun s : WScr => SM.ofPanics (uadd s.real.column 1) >>= fun col =>
      SM.modify fun s : WScr => { s with real := { s.real with column := col } }) :=
    SGrows.bind .get fun _ => SGrows.bind (.ofPanics _) fun _ => .modify fun _ => rfl
  have g2 : SGrowsE (SM.get >>= fun s : WScr => SM.ofPanics (uadd s.real.column 1) >>= fun col =>
      SM.modify fun s : WScr => { s with real := { s.real with column := col } }) :=
    SGrowsE.bind .get .get fun _ => SGrowsE.bind (.ofPanics _) (.ofPanics _) fun _ => .modify
  refine Floats.bind (floats_move _) (sgrows_move _) (fun _ => Floats.bind (floats_apply _ _)
    (sgrows_apply _ _ _) (fun _ => Floats.bind (floats_write _) (.onT (grows_writeStr _)) (fun _ =>
      Floats.bind .get .get (fun _ => Floats.bind (.ofPanics _) (.ofPanics _)
        (fun _ => .modify (fun _ => rfl) fun _ => ⟨rfl, rfl, rfl⟩) (fun _ => .modify fun _ => rfl)
        fun _ => .modify)
        (fun _ => SGrows.bind (.ofPanics _) fun _ => .modify fun _ => rfl)
        (fun _ => SGrowsE.bind (.ofPanics _) (.ofPanics _) fun _ => .modify))
      (fun _ => g1) (fun _ => g2))
    (fun _ => SGrows.bind (.onT (grows_writeStr _)) fun _ => g1)
    (fun _ => SGrowsE.bind (.onT (grows_writeStr _)) (.onT (grows_writeStr _)) fun _ => g2))
    (fun _ => SGrows.bind (sgrows_apply _ _ _) fun _ => SGrows.bind (.onT (grows_writeStr _)) fun _ => g1)
    (fun _ => SGrowsE.bind (sgrows_apply _ _ _) (sgrowsE_apply _ _ _) fun _ =>
      SGrowsE.bind (.onT (grows_writeStr _)) (.onT (grows_writeStr _)) fun _ => g2)

theorem nextCell_len : ∀ (n idx : Nat) (b : Buf) (v : Buf × (Nat × Nat) × Option (Cursor × Cell)),
    b.nextCell u n idx = some v → v.1.back.length = b.back.length := by
  intro n
  induction n using Nat.strongRecOn with
  | ind n ih =>
    intro idx b v h
    cases n with
    | zero => cases h; rfl
    | succ n =>
      rw [nextCell_succ] at h
      simp only [Option.bind_eq_bind, Option.bind_eq_some_iff] at h
      obtain ⟨cell, -, first, -, old, -, h⟩ := h
      split at h
      · split at h
        · cases h
        · cases h
          simp
      · split at h
        · split at h
          · exact ih _ (by omega) _ _ _ h
          · split at h
            · cases h; rfl
            · exact ih _ (by omega) _ _ _ h
        · exact ih _ (by omega) _ _ _ h

theorem floats_drawLoop : ∀ (f : Nat) (r : Nat × Nat) (src : Theme),
    Floats u k wt (wsDrawLoop u wt f r src)
  | 0, _, _ => Floats.halt _
  | f + 1, (idx, n), src => by
    have step : ∀ r : Buf × (Nat × Nat) × Option (Cursor × Cell), Floats u k wt (match r.2.2 with
        | none => (pure () : SWM Unit)
        | some (pos, cell) => wsDrawCell wt src pos cell >>= fun _ =>
            wsDrawLoop u wt f r.2.1 (cellTheme cell)) ∧
        SGrows (match r.2.2 with
        | none => (pure () : SWM Unit)
        | some (pos, cell) => wsDrawCell wt src pos cell >>= fun _ =>
            wsDrawLoop u wt f r.2.1 (cellTheme cell)) ∧
        SGrowsE (match r.2.2 with
        | none => (pure () : SWM Unit)
        | some (pos, cell) => wsDrawCell wt src pos cell >>= fun _ =>
            wsDrawLoop u wt f r.2.1 (cellTheme cell)) := by
      rintro ⟨b, rest, found⟩
      cases found with
      | none => exact ⟨.pure _, .pure _, .pure _⟩
      | some v =>
        exact ⟨Floats.bind (floats_drawCell _ _ _) (sgrows_drawCell _ _ _ _)
            (fun _ => floats_drawLoop f _ _) (fun _ => sgrows_drawLoop _ _ _ _ _)
            (fun _ => sgrowsE_drawLoop _ _ _ _ _),
          SGrows.bind (sgrows_drawCell _ _ _ _) fun _ => sgrows_drawLoop _ _ _ _ _,
          SGrowsE.bind (sgrows_drawCell _ _ _ _) (sgrowsE_drawCell _ _ _ _)
            fun _ => sgrowsE_drawLoop _ _ _ _ _⟩
    have hrun : ∀ x, wsDrawLoop u wt (f + 1) (idx, n) src x =
        match x.buf.nextCell u n idx with
        | none => .stop .panic
        | some r => (match r.2.2 with
          | none => (pure () : SWM Unit)
          | some (pos, cell) => wsDrawCell wt src pos cell >>= fun _ =>
              wsDrawLoop u wt f r.2.1 (cellTheme cell)) { x with buf := r.1 } := by
      intro x
      conv => lhs; unfold wsDrawLoop
      rw [sm_bind, sm_get]
      dsimp only
      cases hn : x.buf.nextCell u n idx with
      | none => rfl
      | some r =>
        rw [sm_bind, sm_ofPanics_some]
        rcases r with ⟨b, rest, found⟩
        rfl
    have hdr : ∀ x r, x.buf.nextCell u n idx = some r → Drift x { x with buf := r.1 } := fun x r hn =>
      ⟨nextCell_keep u x.buf n n idx (Nat.le_refl _) r hn, nextCell_len n idx x.buf r hn, rfl⟩
    constructor
    · intro x c o a x' D c' hL e hl hr
      rw [hrun] at e
      cases hn : x.buf.nextCell u n idx with
      | none => rw [hn] at e; cases e
      | some r =>
        rw [hn] at e
        obtain ⟨q1, q2⟩ := (step r).1.ok { x with buf := r.1 } c o a x' D c'
          ⟨hL.out, hL.active, hL.word, hL.pend, hL.small, hL.whole⟩ e hl hr
        exact ⟨q1, (hdr x r hn).trans q2⟩
    · intro x c o er x' D c' hL e hl hr hm
      rw [hrun] at e
      cases hn : x.buf.nextCell u n idx with
      | none => rw [hn] at e; cases e
      | some r =>
        rw [hn] at e
        obtain ⟨q1, q2⟩ := (step r).1.err { x with buf := r.1 } c o er x' D c'
          ⟨hL.out, hL.active, hL.word, hL.pend, hL.small, hL.whole⟩ e hl hr hm
        exact ⟨q1, (hdr x r hn).trans q2⟩

theorem floats_placeCursor : Floats u k wt wsPlaceCursor := by
  unfold wsPlaceCursor
  refine Floats.bind .get .get (fun s => ?_) (fun s => ?_) (fun s => ?_)
  · split
    · exact Floats.bind (.ofPanics _) (.ofPanics _) (fun _ => floats_move _) (fun _ => sgrows_move _)
        (fun _ => sgrowsE_move _)
    · exact floats_move _
  · split
    · exact SGrows.bind (.ofPanics _) fun _ => sgrows_move _
    · exact sgrows_move _
  · split
    · exact SGrowsE.bind (.ofPanics _) (.ofPanics _) fun _ => sgrowsE_move _
    · exact sgrowsE_move _

theorem rest_grows (u : UEnv) (wt : WTerm) : SGrows (do
        onT (winSetAttributes wt ⟨none, none, .empty⟩)
        let s ← SM.get
        wsDrawLoop u wt (s.buf.size.area + 1) (0, s.buf.size.area) ⟨none, none, .empty⟩
        onT (winSetAttributes wt ⟨none, none, .empty⟩)
        wsPlaceCursor) :=
  SGrows.bind (.onT (grows_setAttributes _ _)) fun _ => SGrows.bind .get fun _ =>
    SGrows.bind (sgrows_drawLoop _ _ _ _ _) fun _ =>
    SGrows.bind (.onT (grows_setAttributes _ _)) fun _ => sgrows_placeCursor

theorem rest_growsE (u : UEnv) (wt : WTerm) : SGrowsE (do
        onT (winSetAttributes wt ⟨none, none, .empty⟩)
        let s ← SM.get
        wsDrawLoop u wt (s.buf.size.area + 1) (0, s.buf.size.area) ⟨none, none, .empty⟩
        onT (winSetAttributes wt ⟨none, none, .empty⟩)
        wsPlaceCursor) :=
  SGrowsE.bind (.onT (grows_setAttributes _ _)) (.onT (grows_setAttributes _ _)) fun _ =>
    SGrowsE.bind .get .get fun _ =>
    SGrowsE.bind (sgrows_drawLoop _ _ _ _ _) (sgrowsE_drawLoop _ _ _ _ _) fun _ =>
    SGrowsE.bind (.onT (grows_setAttributes _ _)) (.onT (grows_setAttributes _ _)) fun _ =>
    sgrowsE_placeCursor

theorem floats_rest : Floats u k wt (do
        onT (winSetAttributes wt ⟨none, none, .empty⟩)
        let s ← SM.get
        wsDrawLoop u wt (s.buf.size.area + 1) (0, s.buf.size.area) ⟨none, none, .empty⟩
        onT (winSetAttributes wt ⟨none, none, .empty⟩)
        wsPlaceCursor) := by
  have gS : ∀ th, SGrows (onT (winSetAttributes wt th)) := fun th => .onT (grows_setAttributes _ _)
  have gE : ∀ th, SGrowsE (onT (winSetAttributes wt th)) := fun th => .onT (grows_setAttributes _ _)
  refine Floats.bind (floats_setAttrs _) (gS _) (fun _ => Floats.bind .get .get (fun _ =>
    Floats.bind (floats_drawLoop _ _ _) (sgrows_drawLoop _ _ _ _ _) (fun _ =>
      Floats.bind (floats_setAttrs _) (gS _) (fun _ => floats_placeCursor)
        (fun _ => sgrows_placeCursor) (fun _ => sgrowsE_placeCursor))
      (fun _ => SGrows.bind (gS _) fun _ => sgrows_placeCursor)
      (fun _ => SGrowsE.bind (gS _) (gE _) fun _ => sgrowsE_placeCursor))
    (fun _ => SGrows.bind (sgrows_drawLoop _ _ _ _ _) fun _ => SGrows.bind (gS _) fun _ => sgrows_placeCursor)
    (fun _ => SGrowsE.bind (sgrows_drawLoop _ _ _ _ _) (sgrowsE_drawLoop _ _ _ _ _) fun _ =>
      SGrowsE.bind (gS _) (gE _) fun _ => sgrowsE_placeCursor))
    (fun _ => SGrows.bind .get fun _ => SGrows.bind (sgrows_drawLoop _ _ _ _ _) fun _ =>
      SGrows.bind (gS _) fun _ => sgrows_placeCursor)
    (fun _ => SGrowsE.bind .get .get fun _ => SGrowsE.bind (sgrows_drawLoop _ _ _ _ _)
      (sgrowsE_drawLoop _ _ _ _ _) fun _ => SGrowsE.bind (gS _) (gE _) fun _ => sgrowsE_placeCursor)

/-- The clearing, of a buffer of any size. -/
theorem loose_clear {x : WScr} {c : Con} {o : OutBuf} (h : Loose wt x c o) :
    (∀ a x' D c', wsClearIfNeeded wt x = .ok a x' → x'.w.log = x.w.log ++ D → c.Shaken u k D c' →
      (∃ o', Loose wt x' c' o') ∧ x'.buf = x.buf ∧ x'.clear = false) ∧
    (∀ e x' D c', wsClearIfNeeded wt x = .err e x' → x'.w.log = x.w.log ++ D → c.Shaken u k D c' →
      (∃ o', Loose wt x' c' o') ∧ x'.toSData = x.toSData ∧ x.clear = true) := by
  unfold wsClearIfNeeded SM.when
  rw [sm_bind, sm_get]
  dsimp only
  cases hc : x.clear with
  | false =>
    rw [if_neg (by simp)]
    constructor
    · intro a x' D c' e hl hr
      cases e
      have hD : D = [] := by simpa using hl
      subst hD
      exact ⟨(lax_shift h.lax hr).loose, rfl, hc⟩
    · intro e x' D c' e'; cases e'
  | true =>
    rw [if_pos rfl]
    constructor
    · intro a x' D c' e hl hr
      obtain ⟨a1, x1, e1, e2⟩ := sm_bind_ok e
      cases e2
      obtain ⟨g1, g2⟩ := onT_ok e1
      obtain ⟨h1, h2⟩ := lax_clearScreen h.lax (Or.inl ⟨a1, g1⟩) hl hr
      obtain ⟨o', hL⟩ := (h1.same h2).loose
      exact ⟨⟨o', hL.out, hL.active, hL.word, hL.pend, hL.small, hL.whole⟩,
        (show x1.buf = x.buf from congrArg SData.buf g2), rfl⟩
    · intro er x' D c' e hl hr
      rcases sm_bind_err e with e | ⟨a1, x1, e1, e2⟩
      · obtain ⟨g1, g2⟩ := onT_err e
        obtain ⟨h1, h2⟩ := lax_clearScreen h.lax (Or.inr ⟨er, g1⟩) hl hr
        exact ⟨(h1.same h2).loose, g2, rfl⟩
      · cases e2

/-- A refresh, whatever the console has become. -/
theorem loose_refresh {x : WScr} {c : Con} {o : OutBuf} (h : Loose wt x c o) :
    (∀ a x' D c', wsRefresh u wt x = .ok a x' → x'.w.log = x.w.log ++ D → c.Shaken u k D c' →
      (∃ o', Loose wt x' c' o') ∧ x'.buf = x.buf.wb x'.buf.back ∧
      x'.buf.back.length = x.buf.back.length ∧ x'.clear = false) ∧
    (∀ e x' D c', wsRefresh u wt x = .err e x' → x'.w.log = x.w.log ++ D → c.Shaken u k D c' →
      (∀ ev ∈ D, MildCall ev) →
      (∃ o', Loose wt x' c' o') ∧ x'.buf = x.buf.wb x'.buf.back ∧
      x'.buf.back.length = x.buf.back.length ∧
      (x'.clear = true → x.clear = true ∧ x'.buf = x.buf)) := by
  unfold wsRefresh winClearAttributes
  obtain ⟨h1, h2⟩ := loose_clear (k := k) (wt := wt) (u := u) h
  have split : ∀ {x x1 x' : WScr} {D D1 D2 : List WEv}, x'.w.log = x.w.log ++ D →
      x1.w.log = x.w.log ++ D1 → x'.w.log = x1.w.log ++ D2 → D = D1 ++ D2 := by
    intro x x1 x' D D1 D2 h h1 h2
    rw [h2, h1, List.append_assoc] at h
    exact (List.append_cancel_left h).symm
  constructor
  · intro a x' D c' e hl hr
    obtain ⟨a1, x1, e1, e2⟩ := sm_bind_ok e
    obtain ⟨D1, l1⟩ := sgrows_clearIfNeeded _ _ _ _ e1
    obtain ⟨D2, l2⟩ := rest_grows u wt _ _ _ e2
    obtain rfl := split hl l1 l2
    obtain ⟨c1, r1, r2⟩ := shaken_append _ _ _ _ hr
    obtain ⟨⟨o1, q1⟩, q2, q3⟩ := h1 a1 x1 D1 c1 e1 l1 r1
    obtain ⟨q4, q5⟩ := floats_rest.ok x1 c1 o1 a x' D2 c' q1 e2 l2 r2
    exact ⟨q4, by rw [q5.buf, q2]; rfl, by rw [q5.len, q2], q5.clear.trans q3⟩
  · intro er x' D c' e hl hr hm
    rcases sm_bind_err e with e | ⟨a1, x1, e1, e2⟩
    · obtain ⟨q1, q2, q3⟩ := h2 er x' D c' e hl hr
      have hb : x'.buf = x.buf := congrArg SData.buf q2
      exact ⟨q1, by rw [hb]; rfl, by rw [hb], fun _ => ⟨q3, hb⟩⟩
    · obtain ⟨D1, l1⟩ := sgrows_clearIfNeeded _ _ _ _ e1
      obtain ⟨D2, l2⟩ := rest_growsE u wt _ _ _ e2
      obtain rfl := split hl l1 l2
      obtain ⟨c1, r1, r2⟩ := shaken_append _ _ _ _ hr
      obtain ⟨⟨o1, q1⟩, q2, q3⟩ := h1 a1 x1 D1 c1 e1 l1 r1
      obtain ⟨q4, q5⟩ := floats_rest.err x1 c1 o1 er x' D2 c' q1 e2 l2 r2
        (fun ev hev => hm ev (List.mem_append_right _ hev))
      refine ⟨q4, by rw [q5.buf, q2]; rfl, by rw [q5.len, q2], fun e => ?_⟩
      rw [q5.clear, q3] at e; cases e

/-- Every cell is excepted. -/
abbrev everyCell : Nat → Prop := fun _ => True

/-- The screen's own data stay in order. -/
theorem fit_drift {X : Nat → Prop} {x x' : WScr} {t : Term} (h : Held u X (gscr x) t)
    (hb : x'.buf = x.buf.wb x'.buf.back) (hlen : x'.buf.back.length = x.buf.back.length)
    (hcl : x'.clear = true → x.clear = true ∧ x'.buf = x.buf) :
    ∃ t', Held u everyCell (gscr x') t' := by
  have hsz : x'.buf.size = x.buf.size := by rw [hb]; rfl
  have hbuf : x'.buf.buffer = x.buf.buffer := by rw [hb]; rfl
  have hg : x.buf.Inv := h.grid
  refine ⟨{ Term.blank x'.buf.size with cur := some x'.real, attrs := view x'.w.theme },
    { grid := ?_, good := ?_, torn := ?_, size := rfl, l32 := ?_, c32 := ?_, paired := ?_,
      lk := gw_lk rfl, bk := ?_, cur := ?_, inval := ?_ }⟩
  · show x'.buf.Inv
    refine ⟨?_, ?_, ?_, ?_⟩
    · rw [hsz]; exact hg.size
    · rw [hbuf, hsz]; exact hg.len
    · rw [hlen, hsz]; exact hg.backLen
    · rw [hbuf]; exact hg.text
  · show ∀ cl ∈ x'.buf.buffer, _
    rw [hbuf]; exact h.good
  · show NoTornIx u x'.buf.size.columns x'.buf.buffer
    rw [hsz, hbuf]; exact h.torn
  · show x'.buf.size.lines ≤ _
    rw [hsz]; exact h.l32
  · show x'.buf.size.columns ≤ _
    rw [hsz]; exact h.c32
  · constructor
    · intro l c e; cases e
    · intro l c a d e; cases e
  · intro j c _ _ hn
    exact absurd trivial hn
  · intro _ _
    exact Or.inl rfl
  · intro e c hc
    have e : x'.clear = true := e
    obtain ⟨e1, e2⟩ := hcl e
    have hc : c ∈ x'.buf.back := hc
    rw [e2] at hc
    exact h.inval e1 c hc

theorem Loose.of_eq {x x' : WScr} {c c' : Con} {o : OutBuf} (h : Loose wt x c o)
    (h1 : x'.w.outH = x.w.outH) (h2 : x'.w.theme = x.w.theme)
    (h3 : c'.outs x.w.outH = c.outs x.w.outH) (h4 : c'.active = c.active) : Loose wt x' c' o :=
  ⟨by rw [h1, h3]; exact h.out, by rw [h4, h1]; exact h.active, by rw [h2]; exact h.word, h.pend,
    h.small, h.whole⟩

/-- A refresh after the screen has been told the size of the buffer. -/
theorem leads_told (hu : SpaceOk u) {x : WScr} {c : Con} {t : Term} {o : OutBuf}
    (h : Held u noCell (gscr x) t) (hc : x.clear = true) (hL : Loose wt x c o)
    (hz : o.glyph.size = t.size) (hta : t.attrs = view x.w.theme) :
    Leads u k c x (wsRefresh u wt) (fun _ c' x' => ∃ t' o',
      After u noCell (gscr x') t' ∧ Rep wt x' c' t' o' ∧
      x'.buf = { x.buf with back := x'.buf.back } ∧ (NoWide u x.buf → AllNarrow t')) := by
  have hsp : u.w ' ' = 1 := by simp [UEnv.w, hu.width]
  unfold wsRefresh winClearAttributes
  have hcl : Leads u k c x (wsClearIfNeeded wt) (fun _ c' x' => ∃ t' o',
      Sync u noCell 0 (gscr x') t' ∧ Rep wt x' c' t' o' ∧ x'.buf = x.buf ∧ x'.clear = false ∧
      AllNarrow t') := by
    unfold wsClearIfNeeded SM.when
    refine Leads.get ?_
    rw [hc, if_pos rfl]
    refine Leads.bind (Leads.onT (does_clearScreen hsp c x.w wt o hL.out hL.small hL.whole)
      (CAt.refl _ _)) (.onT (grows_clearScreen _)) (fun _ => .modify fun _ => rfl) ?_
    rintro _ c' x' ⟨h1, h2⟩
    obtain ⟨l1, l2, l3, l4⟩ := land h1 rfl
    have hb : x'.buf = x.buf := congrArg SData.buf h2
    let t0 : Term := { t with cell := fun _ => .narrow [' '] .plain, cur := some ⟨0, 0⟩, last := none,
                              bce := o.glyph.bce }
    have ha0 : t0.attrs = view x'.w.theme := by rw [l4]; exact hta
    have hsy : Sync u noCell 0 (gscr { x' with clear := false })
        { t with cell := fun _ => .narrow [' '] .plain, cur := some ⟨0, 0⟩, last := none } :=
      sync_cleared h hc (Or.inl fun _ h => h) rfl hb (gw_lk (show t.attrs = _ from ha0))
    refine Leads.modify rfl ⟨t0, o.wiped wt.defAttrs, ?_, ⟨l1, ?_, ha0, ?_, ?_, ?_⟩, hb, rfl, ?_⟩
    · exact hsy.keep rfl rfl (gw_lk ha0) rfl rfl rfl
    · rw [l2]; dsimp only; rw [l3]; exact hL.active
    · show SmallSize t.size
      rw [← hz]; exact hL.small
    · intro e; cases e
    · refine ⟨?_, ?_, hL.pend, ?_, ?_⟩
      · unfold OutBuf.wiped Term.bare
        dsimp only [t0]
        rw [← hz]
        rfl
      · dsimp only; rw [l4]; exact hL.word
      · rintro - q y d hq
        refine ⟨plainTheme, ?_, (themeWord_plain wt).symm⟩
        rcases hq with hq | hq
        · have hq : TCell.narrow [' '] DevAttrs.plain = .narrow y d := hq
          cases hq
          rfl
        · have hq : TCell.narrow [' '] DevAttrs.plain = .left y d := hq
          cases hq
      · rintro - q y d - hq
        have hq : TCell.narrow [' '] DevAttrs.plain = .right := hq
        cases hq
    · exact fun q => ⟨_, _, rfl⟩
  refine Leads.bind hcl (sgrows_clearIfNeeded _) (fun _ => rest_grows u wt) ?_
  rintro _ c1 x1 ⟨t1, o1, y1, r1, b1, k1, a1⟩
  refine (leads_rest hu y1 r1 k1).mono ?_
  rintro _ c2 x2 ⟨t2, o2, h1, h2, h3, h4, -⟩
  exact ⟨t2, o2, h1, h2, by rw [h3, b1], fun hn => h4 a1 (by rw [b1]; exact hn)⟩

/-! ## Sessions -/

/-- The screen has been told the size of the buffer and is going to clear it. -/
def Retold (u : UEnv) (x : WSess) : Prop :=
  x.s.clear = true ∧ ∃ t o, Held u noCell (gscr x.s) t ∧ x.c.outs x.s.w.outH = some o ∧
    o.glyph.size = t.size ∧ t.attrs = view x.s.w.theme

/-- Between the steps of a session; `f` tells whether the screen's knowledge is current, and `N` that
no two-column characters are drawn. -/
def WLiveInv (u : UEnv) (wt : WTerm) (N : Prop) (f : Prop) (x : WSess) : Prop :=
  (∃ t o, Held u everyCell (gscr x.s) t ∧ Loose wt x.s x.c o) ∧ (N → NoWide u x.s.buf) ∧
  (f → WSInv u wt N x ∨ Retold u x)

/-- The part of a step that is about the buffer alone. -/
def LiveCarries (u : UEnv) (st : LiveStep) (b : Buf) (y : WSess) : Prop :=
  match st.asOp with
  | none => y.s.buf = b.wb y.s.buf.back
  | some op => ∃ b1, op.run u b = some b1 ∧ y.s.buf = b1.wb y.s.buf.back

theorem liveStep_refresh (hT : TableOk u) {N : Prop} {f : Prop} (hf : f) {x y : WSess}
    (h : WLiveInv u wt N f x) (hw : WNoReveal u x) (e : LiveStep.refresh.To u wt x y) :
    ∃ t' o', After u noCell (gscr y.s) t' ∧ Rep wt y.s y.c t' o' ∧ (N → AllNarrow t') := by
  obtain ⟨e1, D, e2, e3⟩ := e
  obtain ⟨⟨t0, o0, i1, i2⟩, hN, hs⟩ := h
  rcases hs hf with ⟨t, o, h1, h2, h3, h4⟩ | ⟨hc, t, o, h1, h2, h3, h4⟩
  · obtain ⟨c', p1, t', o', q1, q2, q3, q4⟩ := leads_refresh hT.space h1
      (wnoReveal_stale h1 h2 h3 hw) (Or.inl fun _ h => h) h2 () y.s D e1 e2 (lives_runs _ _ _ e3)
    obtain rfl := lives_play _ _ _ _ e3 p1
    exact ⟨t', o', q1, q2, fun n => q4 (h4 n).1 (h4 n).2⟩
  · have ho : o = o0 := Option.some.inj (h2.symm.trans i2.out)
    subst ho
    obtain ⟨c', p1, t', o', q1, q2, q3, q4⟩ := leads_told hT.space h1 hc i2 h3 h4 () y.s D e1 e2
      (lives_runs _ _ _ e3)
    obtain rfl := lives_play _ _ _ _ e3 p1
    exact ⟨t', o', q1, q2, fun n => q4 (hN n)⟩

theorem wliveInv_step (hT : TableOk u) {N : Prop} {f : Prop} {x y : WSess}
    (h : WLiveInv u wt N f x) {st : LiveStep} (hw : st.Wide u x f) (hN : N → st.Narrow u)
    (e : st.To u wt x y) :
    WLiveInv u wt N (st.current x f) y ∧
    ∀ b : Buf, x.s.buf = b.wb x.s.buf.back → LiveCarries u st b y := by
  obtain ⟨⟨t, o, h1, h2⟩, h3, h4⟩ := id h
  have hnw : ∀ {x' : WSess}, x'.s.buf = x.s.buf.wb x'.s.buf.back → N → NoWide u x'.s.buf := by
    intro x' hb n
    unfold NoWide
    rw [hb]; exact h3 n
  cases st with
  | draw op =>
    obtain ⟨b', e1, rfl⟩ := e
    obtain ⟨hop, hs, hm⟩ := hw
    refine ⟨⟨⟨t, o, h1.draw hT hop hs hm e1, h2.of_eq rfl rfl rfl rfl⟩, fun n =>
      noWide_draw hT hop (hN n).2.1 h1.grid (h3 n) e1, fun hf => ?_⟩, fun b hb => ?_⟩
    · rcases h4 hf with h4 | ⟨k1, t', o', k2, k3, k4, k5⟩
      · exact Or.inl (wsinv_step hT h4 (st := .draw op) ⟨hop, hs, hm⟩ hN ⟨b', e1, rfl⟩).1
      · exact Or.inr ⟨k1, t', o', k2.draw hT hop hs hm e1, k3, k4, k5⟩
    · show ∃ b1, _
      rw [hb, op_wb u _ op hop, Option.map_eq_some_iff] at e1
      obtain ⟨b1, q1, q2⟩ := e1
      refine ⟨b1, q1, ?_⟩
      show b' = b1.wb b'.back
      rw [← q2]; rfl
  | refresh =>
    obtain ⟨e1, D, e2, e3⟩ := id e
    obtain ⟨⟨o', k1⟩, k2, k3, k4⟩ := (loose_refresh (u := u) (k := wt.inH) h2).1 () y.s D y.c e1 e2
      (lives_shaken _ _ _ e3)
    obtain ⟨t', q⟩ := fit_drift h1 k2 k3 (by rw [k4]; intro e; cases e)
    refine ⟨⟨⟨t', o', q, k1⟩, hnw k2, fun hf => Or.inl ?_⟩, fun b hb => ?_⟩
    · obtain ⟨t1, o1, g1, g2, g3⟩ := liveStep_refresh hT hf h (hw hf) e
      exact ⟨t1, o1, g1.toHeld, g2, fun _ p hp => g1.whole hT.space p hp,
        fun n => ⟨Or.inr (g3 n), hnw k2 n⟩⟩
    · show y.s.buf = b.wb y.s.buf.back
      rw [k2, hb]; rfl
  | disturbed =>
    obtain ⟨e1, D, e2, e3⟩ := e
    obtain ⟨⟨o', k1⟩, k2, k3, k4⟩ := (loose_refresh (u := u) (k := wt.inH) h2).1 () y.s D y.c e1 e2 e3
    obtain ⟨t', q⟩ := fit_drift h1 k2 k3 (by rw [k4]; intro e; cases e)
    refine ⟨⟨⟨t', o', q, k1⟩, hnw k2, fun hf => hf.elim⟩, fun b hb => ?_⟩
    show y.s.buf = b.wb y.s.buf.back
    rw [k2, hb]; rfl
  | failed =>
    obtain ⟨⟨er, e1⟩, D, e2, e3, e4⟩ := e
    obtain ⟨⟨o', k1⟩, k2, k3, k4⟩ := (loose_refresh (u := u) (k := wt.inH) h2).2 er y.s D y.c e1 e2 e3 e4
    obtain ⟨t', q⟩ := fit_drift h1 k2 k3 k4
    refine ⟨⟨⟨t', o', q, k1⟩, hnw k2, fun hf => hf.elim⟩, fun b hb => ?_⟩
    show y.s.buf = b.wb y.s.buf.back
    rw [k2, hb]; rfl
  | changed o1 =>
    obtain ⟨e1, ⟨q, e2⟩, o0, e3, e4, e5⟩ := e
    obtain ⟨hz, hwin⟩ := hw
    have ho : o0 = o := Option.some.inj (e3.symm.trans h2.out)
    subst ho
    refine ⟨⟨⟨t, o1, by rw [e1]; exact h1, ?_⟩, by rw [e1]; exact h3, fun hf => hf.elim⟩, fun b hb => ?_⟩
    · rw [e1, e2]
      exact ⟨setOut_outs _ _ _, h2.active, e4.trans h2.word, e5.trans h2.pend, hz.2, hwin⟩
    · show y.s.buf = b.wb y.s.buf.back
      rw [e1]; exact hb
  | other =>
    obtain ⟨e1, e2, e3, e4, e5⟩ := id e
    have hg : gscr y.s = gscr x.s := by unfold gscr; rw [e1, e3]
    have hb : y.s.buf = x.s.buf := congrArg SData.buf e1
    have hc : y.s.clear = x.s.clear := congrArg SData.clear e1
    refine ⟨⟨⟨t, o, by rw [hg]; exact h1, h2.of_eq e2 e3 e5 e4⟩, by rw [hb]; exact h3,
      fun hf => ?_⟩, fun b hb' => ?_⟩
    · rcases h4 hf with h4 | ⟨k1, t', o', k2, k3, k4, k5⟩
      · exact Or.inl (wsinv_step hT h4 (st := .other) trivial (fun _ => trivial) e).1
      · exact Or.inr ⟨by rw [hc]; exact k1, t', o', by rw [hg]; exact k2, by rw [e2, e5]; exact k3, k4,
          by rw [e3]; exact k5⟩
    · show y.s.buf = b.wb y.s.buf.back
      rw [hb]; exact hb'
  | reported z =>
    obtain ⟨e1, e2⟩ := e
    obtain ⟨hz, hs⟩ := hw
    obtain ⟨u1, u2⟩ := wsUpdateSize_ok e1
    have hzs : ScreenSize z := ⟨hz.1, by have := hz.2.1; omega, by have := hz.2.2; omega⟩
    let tz : Term := { size := z, cell := fun _ => .narrow [' '] .plain, cur := none, last := none,
                       attrs := .plain }
    have hpair : tz.Paired := by
      constructor
      · intro l c e; cases e
      · intro l c a d e; cases e
    obtain ⟨g1, g2⟩ := h1.resized hT hzs hs hpair (cur := none) u1
    have hcl : y.s.clear = true := g2
    let t' : Term := { size := z, cell := fun _ => .narrow [' '] .plain, cur := none, last := none,
                       attrs := view y.s.w.theme }
    have hbase : Base u noCell (gscr y.s) t' := g1.toBase.keep rfl (gw_lk rfl) rfl rfl
    have hheld : Held u noCell (gscr y.s) t' := by
      refine { hbase with cur := ?_, inval := g1.inval }
      intro e
      have e : y.s.clear = false := e
      rw [hcl] at e; cases e
    refine ⟨⟨⟨t', o, ?_, h2.of_eq (by rw [u2]) (by rw [u2]) (by rw [e2]) (by rw [e2])⟩, ?_, ?_⟩, ?_⟩
    · exact { hheld.toBase.mono (fun _ h => h.elim) with cur := hheld.cur, inval := hheld.inval }
    · intro n
      have u1 : x.s.toSData.updateSize z = some y.s.toSData := u1
      unfold SData.updateSize at u1
      cases e3 : x.s.buf.resize z with
      | none => rw [e3] at u1; cases u1
      | some b' =>
        rw [e3] at u1
        have u1 : _ = y.s.toSData := Option.some.inj u1
        rw [← u1]
        refine resize_cells h1.grid hzs.1 e3 ?_ (h3 n)
        exact not_wide_of_head_space hT.space rfl
    · rintro ⟨o1, k1, k2⟩
      exact Or.inr ⟨hcl, t', o1, hheld, by rw [e2, u2]; exact k1, k2, rfl⟩
    · intro b hb
      show ∃ b1, _
      unfold SData.updateSize at u1
      cases e3 : x.s.buf.resize z with
      | none => rw [e3] at u1; cases u1
      | some b' =>
        rw [e3] at u1
        have u1 : _ = y.s.toSData := Option.some.inj u1
        rw [hb] at e3
        refine ⟨b', e3, ?_⟩
        rw [← u1]
        rfl

/-- Steps without two-column characters meet the conditions of the others. -/
theorem liveNarrow_wide (hT : TableOk u) {N : Prop} (n : N) {f : Prop} {x : WSess}
    (h : WLiveInv u wt N f x) {st : LiveStep} (hN : st.Narrow u) : st.Wide u x f := by
  obtain ⟨⟨t, o, h1, h2⟩, h3, h4⟩ := h
  cases st with
  | draw op =>
    obtain ⟨hop, hs, hm⟩ := hN
    exact ⟨hop, safeOp_narrow hT hop hs h1.grid.size.2.1, hm⟩
  | other => trivial
  | failed => trivial
  | disturbed => trivial
  | changed o => exact hN
  | reported z =>
    refine ⟨hN, hN.1, fun c cell _ _ hc hw => ?_⟩
    have := h3 n cell (List.mem_of_getElem? hc)
    rw [isWide_iff.mpr hw] at this
    cases this
  | refresh =>
    intro hf hc o' ho p hp hr _
    rcases h4 hf with ⟨t', o1, k1, k2, k3, k4⟩ | ⟨k1, -⟩
    · have ho : o' = o1 := Option.some.inj (ho.symm.trans k2.out)
      rw [ho, k2.rel.glyph] at hr
      have hr := bare_right.mp hr
      rcases (k4 n).1 with n1 | n1
      · rw [hc] at n1; cases n1
      · obtain ⟨a, d, e⟩ := n1 p
        rw [e] at hr; cases hr
    · rw [hc] at k1; cases k1

theorem wliveInv_run (hT : TableOk u) {N : Prop} : ∀ (steps : List LiveStep) (x y : WSess) (f g : Prop)
    (b : Buf), WLiveInv u wt N f x → x.s.buf = b.wb x.s.buf.back →
    (LiveWideRun u wt x f steps ∨ N) → (N → ∀ st ∈ steps, st.Narrow u) →
    LivePath u wt steps x f y g →
    WLiveInv u wt N g y ∧ ∃ b', runOps u (steps.filterMap LiveStep.asOp) b = some b' ∧
      y.s.buf = b'.wb y.s.buf.back := by
  intro steps
  induction steps with
  | nil =>
    rintro x y f g b h hb - - ⟨rfl, rfl⟩
    exact ⟨h, b, rfl, hb⟩
  | cons st steps ih =>
    rintro x y f g b h hb hw hN ⟨x', e1, e2⟩
    have hst : st.Wide u x f := by
      rcases hw with hw | n
      · exact hw.1
      · exact liveNarrow_wide hT n h (hN n st (List.mem_cons_self ..))
    obtain ⟨h', hc⟩ := wliveInv_step hT h hst (fun n => hN n st (List.mem_cons_self ..)) e1
    have hc := hc b hb
    have hw' : LiveWideRun u wt x' (st.current x f) steps ∨ N := hw.imp (fun hw => hw.2 x' e1) id
    have hN' : N → ∀ st ∈ steps, st.Narrow u := fun n s hs => hN n s (List.mem_cons_of_mem _ hs)
    unfold LiveCarries at hc
    cases ha : st.asOp with
    | none =>
      rw [ha] at hc
      rw [List.filterMap_cons_none ha]
      exact ih x' y _ g b h' hc hw' hN' e2
    | some op =>
      rw [ha] at hc
      obtain ⟨b1, q1, q2⟩ := hc
      rw [List.filterMap_cons_some ha]
      obtain ⟨r1, b', r2, r3⟩ := ih x' y _ g b1 h' q2 hw' hN' e2
      refine ⟨r1, b', ?_, r3⟩
      show (op.run u b).bind _ = _
      rw [q1]; exact r2

theorem livePath_append : ∀ (a b : List LiveStep) (x y : WSess) (f g : Prop),
    LivePath u wt (a ++ b) x f y g → ∃ x' f', LivePath u wt a x f x' f' ∧ LivePath u wt b x' f' y g
  | [], b, x, y, f, g, h => ⟨x, f, ⟨rfl, rfl⟩, h⟩
  | st :: a, b, x, y, f, g, ⟨x1, h1, h2⟩ => by
    obtain ⟨x', f', g1, g2⟩ := livePath_append a b x1 y _ g h2
    exact ⟨x', f', ⟨x1, h1, g1⟩, g2⟩

theorem liveWide_append : ∀ (a b : List LiveStep) (x : WSess) (f : Prop),
    LiveWideRun u wt x f (a ++ b) →
    LiveWideRun u wt x f a ∧ ∀ x' f', LivePath u wt a x f x' f' → LiveWideRun u wt x' f' b
  | [], b, x, f, h => ⟨trivial, fun x' f' e => by obtain ⟨rfl, rfl⟩ := e; exact h⟩
  | st :: a, b, x, f, ⟨h1, h2⟩ =>
    ⟨⟨h1, fun x' e => (liveWide_append a b x' _ (h2 x' e)).1⟩,
      fun _ _ ⟨x1, e1, e2⟩ => (liveWide_append a b x1 _ (h2 x1 e1)).2 _ _ e2⟩

theorem live_opened (hT : TableOk u) {cfg : PrepareConfig} {z : Size} (hz : ConSize z) {x : WSess}
    (h : WOpened u wt cfg z x) (hwin : ∀ o, x.c.outs x.s.w.outH = some o → WholeWindow o) {N : Prop} :
    WLiveInv u wt N True x ∧ x.s.buf = Buf.new z := by
  obtain ⟨i, hb⟩ := wopened_inv hT hz h (N := N)
  obtain ⟨t, o, h1, h2, h3, h4⟩ := id i
  have hs : o.glyph.size = t.size := by rw [h2.rel.glyph]; rfl
  refine ⟨⟨⟨t, o, ?_, h2.out, h2.active, h2.rel.word, h2.rel.pend, by rw [hs]; exact h2.small, hwin o h2.out⟩,
    fun n => (h4 n).2, fun _ => Or.inl i⟩, hb⟩
  exact { h1.toBase.mono (fun _ h => h.elim) with cur := h1.cur, inval := h1.inval }

/-- What the last refresh of a session leaves. -/
theorem live_end (hT : TableOk u) {cfg : PrepareConfig} {z : Size} (hz : ConSize z) {x y : WSess}
    (hx : WOpened u wt cfg z x) (hwin : ∀ o, x.c.outs x.s.w.outH = some o → WholeWindow o)
    {steps : List LiveStep} (N : Prop) {g : Prop}
    (hs : LiveWideRun u wt x True (steps ++ [.refresh]) ∨ N)
    (hN : N → ∀ st ∈ steps, st.Narrow u)
    (h : LivePath u wt (steps ++ [.refresh]) x True y g) :
    ∃ b, runOps u (steps.filterMap LiveStep.asOp) (Buf.new z) = some b ∧ (N → NoWide u b) ∧
      (g → ∃ o, y.c.outs y.s.w.outH = some o ∧ y.c.active = y.s.w.outH ∧
        ConShows u wt.defAttrs o b ∧ o.word = wt.defAttrs ∧
        (¬ RightHalf u b (target b) → o.glyph.cur = some (target b))) := by
  obtain ⟨x', f', h1, y', e, rfl, rfl⟩ := livePath_append _ _ _ _ _ _ h
  obtain ⟨i0, hb0⟩ := live_opened hT hz hx hwin (N := N)
  obtain ⟨i1, b, r1, r2⟩ := wliveInv_run hT steps x x' _ _ (Buf.new z) i0 (by rw [hb0]; rfl)
    (hs.imp (fun hs => (liveWide_append _ _ _ _ hs).1) id) hN h1
  have hrev : LiveStep.refresh.Wide u x' g := by
    rcases hs with hs | n
    · exact ((liveWide_append _ _ _ _ hs).2 _ _ h1).1
    · exact liveNarrow_wide hT n i1 (st := .refresh) (trivial : LiveStep.refresh.Narrow u)
  obtain ⟨i2, hc⟩ := wliveInv_step hT i1 hrev (fun _ => (trivial : LiveStep.refresh.Narrow u)) e
  have hb : y.s.buf = b.wb y.s.buf.back := hc b r2
  refine ⟨b, r1, fun n => ?_, fun hf => ?_⟩
  · have := i2.2.1 n
    rw [hb] at this
    exact this
  · obtain ⟨t', o', q1, q2, -⟩ := liveStep_refresh hT hf i1 (hrev hf) e
    obtain ⟨s1, s2, s3⟩ := conShows_after hT.space q1 q2
    rw [hb] at s1 s3
    exact ⟨o', q2.out, q2.active, s1, s2, s3⟩

end Mortal
