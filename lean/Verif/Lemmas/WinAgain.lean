import Verif.Props.WinScreen
import Verif.Lemmas.WinShow
import Verif.Lemmas.ScreenTexts

/-! # Repeating a refresh of a Windows screen -/

namespace Mortal
open Spec

theorem boolCall_ok {c : ConCall} {s s' : WinSt} {a : Unit} (h : boolCall c s = .ok a s') :
    SameTerm s s' := by
  unfold boolCall at h
  obtain ⟨r, s1, h1, h2⟩ := sm_bind_ok h
  obtain ⟨-, -, -, h3, -⟩ := conCall_ok h1
  cases r <;> cases h2 <;> exact h3

theorem winMoveCursor_ok {p : Cursor} {s s' : WinSt} {a : Unit} (h : winMoveCursor p s = .ok a s') :
    SameTerm s s' := by
  unfold winMoveCursor moveAbs at h
  rw [sm_bind, sm_get] at h
  exact boolCall_ok h

theorem winSetAttributes_ok {t : WTerm} {th : Theme} {s s' : WinSt} {a : Unit}
    (h : winSetAttributes t th s = .ok a s') : s'.theme = th := by
  unfold winSetAttributes at h
  rw [sm_bind, sm_get] at h
  dsimp only at h
  by_cases ht : s.theme = th
  · rw [if_neg (not_not_intro ht)] at h
    cases h; exact ht
  · rw [if_pos ht, sm_bind, sm_modify] at h
    dsimp only at h
    unfold updateAttrs at h
    rw [sm_bind, sm_get] at h
    exact (boolCall_ok h).theme

theorem winSetAttributes_noop {t : WTerm} {th : Theme} {s : WinSt} (h : s.theme = th) :
    winSetAttributes t th s = .ok () s := by
  unfold winSetAttributes
  rw [sm_bind, sm_get]
  dsimp only
  rw [if_neg (not_not_intro h)]
  rfl

theorem wsMoveCursor_ok {p : Cursor} {x x' : WScr} {a : Unit} (h : wsMoveCursor p x = .ok a x') :
    x'.buf = x.buf ∧ x'.clear = x.clear ∧ x'.real = p ∧ x'.w.theme = x.w.theme := by
  unfold wsMoveCursor at h
  rw [sm_bind, sm_get] at h
  dsimp only at h
  by_cases hp : x.real = p
  · rw [if_neg (not_not_intro hp)] at h
    cases h; exact ⟨rfl, rfl, hp, rfl⟩
  · rw [if_pos hp] at h
    obtain ⟨_, x1, h1, h2⟩ := sm_bind_ok h
    obtain ⟨f1, f2⟩ := onT_ok h1
    have a := congrArg SData.buf f2
    have b := congrArg SData.clear f2
    cases h2
    exact ⟨a, b, rfl, (winMoveCursor_ok f1).theme⟩

theorem wsMoveCursor_noop {p : Cursor} {x : WScr} (h : x.real = p) :
    wsMoveCursor p x = .ok () x := by
  unfold wsMoveCursor
  rw [sm_bind, sm_get]
  dsimp only
  rw [if_neg (not_not_intro h)]
  rfl

theorem onT_buf {α : Type} {m : WM α} {x x' : WScr} {a : α} (h : onT m x = .ok a x') :
    x'.buf = x.buf ∧ x'.clear = x.clear :=
  ⟨congrArg SData.buf (onT_ok h).2, congrArg SData.clear (onT_ok h).2⟩

theorem wsDrawCell_ok {t : WTerm} {src : Theme} {p : Cursor} {c : Cell} {x x' : WScr} {a : Unit}
    (h : wsDrawCell t src p c x = .ok a x') : x'.buf = x.buf ∧ x'.clear = x.clear := by
  unfold wsDrawCell at h
  obtain ⟨_, x1, h1, h⟩ := sm_bind_ok h
  obtain ⟨_, x2, h2, h⟩ := sm_bind_ok h
  obtain ⟨_, x3, h3, h⟩ := sm_bind_ok h
  obtain ⟨k1, k2, -, -⟩ := wsMoveCursor_ok h1
  have h2' : x2.buf = x1.buf ∧ x2.clear = x1.clear := by
    unfold applyAttrs at h2
    split at h2
    · exact onT_buf h2
    · cases h2; exact ⟨rfl, rfl⟩
  have h3' := onT_buf h3
  rw [sm_bind, sm_get] at h
  dsimp only at h
  obtain ⟨c, x4, h4, h5⟩ := sm_bind_ok h
  have : x4 = x3 := by
    cases hu : uadd x3.real.column 1 with
    | none => rw [hu] at h4; cases h4
    | some v => rw [hu] at h4; cases h4; rfl
  subst this
  cases h5
  exact ⟨h3'.1.trans (h2'.1.trans k1), h3'.2.trans (h2'.2.trans k2)⟩

theorem wsDrawLoop_eq (u : UEnv) (t : WTerm) (f idx n : Nat) (src : Theme) (x : WScr) :
    wsDrawLoop u t (f + 1) (idx, n) src x =
      match x.buf.nextCell u n idx with
      | none => .stop .panic
      | some (b, rest, found) =>
        match found with
        | none => .ok () { x with buf := b }
        | some (pos, cell) =>
          match wsDrawCell t src pos cell { x with buf := b } with
          | .ok _ x' => wsDrawLoop u t f rest (cellTheme cell) x'
          | .err e x' => .err e x'
          | .stop h => .stop h := by
  rw [wsDrawLoop, sm_bind, sm_get]
  dsimp only
  cases x.buf.nextCell u n idx with
  | none => rfl
  | some r =>
    obtain ⟨b, rest, found⟩ := r
    cases found with
    | none => rfl
    | some r =>
      obtain ⟨pos, cell⟩ := r
      simp only [sm_bind, sm_ofPanics_some, sm_modify]
      cases wsDrawCell t src pos cell { x with buf := b } <;> rfl

/-- After the loop, going over the same range again finds nothing to do. -/
theorem wsDrawLoop_again {u : UEnv} {t : WTerm} :
    ∀ (m n f idx : Nat) (src : Theme) (x x' : WScr), n ≤ m → n < f →
      x.buf.buffer.length = idx + n → x.buf.Inv → wsDrawLoop u t f (idx, n) src x = .ok () x' →
      x'.buf = { x.buf with back := x'.buf.back } ∧ x'.buf.back.length = x.buf.back.length ∧
      x'.clear = x.clear ∧
      (∀ j, j < idx → x'.buf.back[j]? = x.buf.back[j]?) ∧
      ∀ y : WScr, y.buf = x'.buf → ∀ g src', n < g → wsDrawLoop u t g (idx, n) src' y = .ok () y := by
  have hdone : ∀ (g idx : Nat) (src : Theme) (x : WScr), 0 < g →
      wsDrawLoop u t g (idx, 0) src x = .ok () x := by
    intro g idx src x hg
    obtain ⟨g, rfl⟩ : ∃ k, g = k + 1 := ⟨g - 1, by omega⟩
    rw [wsDrawLoop_eq]
    rfl
  have hsame : ∀ (g idx n : Nat) (src : Theme) (x : WScr) (c : Cell),
      x.buf.buffer[idx]? = some c → c.text ≠ [] → x.buf.back[idx]? = some c →
      wsDrawLoop u t (g + 1) (idx, n + 1) src x =
        wsDrawLoop u t (g + 1) (idx + 1 + skipOf u c n, n - skipOf u c n) src x := by
    intro g idx n src x c hb ht hk
    rw [wsDrawLoop_eq, nextCell_same hb ht hk, ← wsDrawLoop_eq]
  intro m
  induction m with
  | zero =>
    intro n f idx src x x' hm hf hlen hi e
    obtain rfl : n = 0 := by omega
    rw [hdone _ _ _ _ hf] at e
    cases e
    exact ⟨rfl, rfl, rfl, fun _ _ => rfl, fun y _ g src' hg => hdone _ _ _ _ hg⟩
  | succ m ih =>
    intro n f idx src x x' hm hf hlen hi e
    obtain ⟨f, rfl⟩ : ∃ g, f = g + 1 := ⟨f - 1, by omega⟩
    cases n with
    | zero =>
      rw [hdone _ _ _ _ hf] at e
      cases e
      exact ⟨rfl, rfl, rfl, fun _ _ => rfl, fun y _ g src' hg => hdone _ _ _ _ hg⟩
    | succ n =>
      have hlt : idx < x.buf.buffer.length := by omega
      have hb : x.buf.buffer[idx]? = some x.buf.buffer[idx] := List.getElem?_eq_getElem hlt
      have hlt' : idx < x.buf.back.length := by rw [hi.backLen, ← hi.len]; exact hlt
      have hk : x.buf.back[idx]? = some x.buf.back[idx] := List.getElem?_eq_getElem hlt'
      generalize x.buf.buffer[idx] = c at hb
      generalize x.buf.back[idx] = old at hk
      have hne : c.text ≠ [] := hi.text c (List.mem_of_getElem? hb)
      have hsk : skipOf u c n ≤ n := by unfold skipOf; split <;> omega
      by_cases hco : c = old
      · subst hco
        rw [hsame _ _ _ _ _ _ hb hne hk] at e
        obtain ⟨g1, g2, g3, g4, g5⟩ := ih (n - skipOf u c n) (f + 1) (idx + 1 + skipOf u c n) _ x x'
          (by omega) (by omega) (by omega) hi e
        refine ⟨g1, g2, g3, fun j hj => g4 j (by omega), fun y hy g src' hg => ?_⟩
        obtain ⟨g, rfl⟩ : ∃ k, g = k + 1 := ⟨g - 1, by omega⟩
        have hb2 : y.buf.buffer[idx]? = some c := by rw [hy, g1]; exact hb
        have hk2 : y.buf.back[idx]? = some c := by rw [hy, g4 idx (by omega)]; exact hk
        rw [hsame _ _ _ _ _ _ hb2 hne hk2]
        exact g5 y hy (g + 1) _ (by omega)
      · rw [wsDrawLoop_eq, nextCell_draw hb hne hk hco (by have := hi.size.2.1; omega)] at e
        dsimp only at e
        cases ed : wsDrawCell t src (posOf x.buf.size idx) c
            { x with buf := { x.buf with back := x.buf.back.set idx c } } with
        | err e1 s1 => rw [ed] at e; cases e
        | stop x => rw [ed] at e; cases e
        | ok _ x1 =>
          rw [ed] at e
          dsimp only at e
          obtain ⟨d1, d2⟩ := wsDrawCell_ok ed
          dsimp only at d1 d2
          have hi1 : x1.buf.Inv := by
            rw [d1]
            refine ⟨hi.size, hi.len, ?_, hi.text⟩
            show (x.buf.back.set idx c).length = _
            rw [List.length_set]; exact hi.backLen
          have hb1 : x1.buf.buffer = x.buf.buffer := by rw [d1]
          have hk1 : x1.buf.back = x.buf.back.set idx c := by rw [d1]
          obtain ⟨g1, g2, g3, g4, g5⟩ := ih (n - skipOf u c n) f (idx + 1 + skipOf u c n) _ x1 x'
            (by omega) (by omega) (by rw [hb1]; omega) hi1 e
          refine ⟨?_, ?_, g3.trans d2, fun j hj => ?_, fun y hy g src' hg => ?_⟩
          · rw [g1, d1]
          · rw [g2, hk1, List.length_set]
          · rw [g4 j (by omega), hk1, List.getElem?_set, if_neg (by omega)]
          · obtain ⟨g, rfl⟩ : ∃ k, g = k + 1 := ⟨g - 1, by omega⟩
            have hb2 : y.buf.buffer[idx]? = some c := by
              rw [hy, g1]; show x1.buf.buffer[idx]? = _; rw [hb1]; exact hb
            have hk2 : y.buf.back[idx]? = some c := by
              rw [hy, g4 idx (by omega), hk1, List.getElem?_set, if_pos rfl, if_pos hlt']
            rw [hsame _ _ _ _ _ _ hb2 hne hk2]
            exact g5 y hy (g + 1) _ (by omega)

theorem onT_noop {m : WM Unit} {x : WScr} (h : m x.w = .ok () x.w) : onT m x = .ok () x := by
  unfold onT
  rw [h]

theorem bind_noop {σ β : Type} {m : SM σ Unit} {f : Unit → SM σ β} {s : σ} (h : m s = .ok () s) :
    (m >>= f) s = f () s := by rw [sm_bind, h]

/-- Refreshing again right after a successful refresh changes nothing: the console is not called. -/
theorem wsRefresh_again {u : UEnv} {t : WTerm} {x x' : WScr} (hi : x.buf.Inv)
    (e : wsRefresh u t x = .ok () x') : wsRefresh u t x' = .ok () x' := by
  unfold wsRefresh at e
  obtain ⟨_, x1, e1, e⟩ := sm_bind_ok e
  obtain ⟨_, x2, e2, e⟩ := sm_bind_ok e
  rw [sm_bind, sm_get] at e
  dsimp only at e
  obtain ⟨_, x3, e3, e⟩ := sm_bind_ok e
  obtain ⟨_, x4, e4, e⟩ := sm_bind_ok e
  have h1 : x1.buf = x.buf ∧ x1.clear = false := by
    unfold wsClearIfNeeded at e1
    rw [sm_bind, sm_get] at e1
    dsimp only at e1
    cases hc : x.clear with
    | false => rw [hc] at e1; cases e1; exact ⟨rfl, hc⟩
    | true =>
      rw [hc] at e1
      obtain ⟨_, x0, f1, f2⟩ := sm_bind_ok (show (onT (winClearScreen t) >>= fun _ =>
        SM.modify fun s => { s with clear := false }) x = _ from e1)
      have := onT_buf f1
      cases f2
      exact ⟨this.1, rfl⟩
  have h2 : x2.buf = x.buf ∧ x2.clear = false :=
    ⟨(onT_buf e2).1.trans h1.1, (onT_buf e2).2.trans h1.2⟩
  have hi2 : x2.buf.Inv := by rw [h2.1]; exact hi
  have harea : x2.buf.buffer.length = 0 + x2.buf.size.area := by
    rw [hi2.len]; unfold Size.area; omega
  obtain ⟨k1, k2, k3, -, k5⟩ := wsDrawLoop_again _ _ _ _ _ _ _ (Nat.le_refl _) (by omega) harea hi2 e3
  have h4 := onT_buf e4
  have t4 : x4.w.theme = ⟨none, none, .empty⟩ := winSetAttributes_ok (onT_ok e4).1
  have z4 : GoodSize x4.buf.size := by rw [h4.1, k1]; exact hi2.size
  rw [wsPlaceCursor_eq x4 z4] at e
  obtain ⟨b5, c5, r5, t5⟩ := wsMoveCursor_ok e
  have hbuf : x'.buf = x3.buf := b5.trans h4.1
  have hclear : x'.clear = false := c5.trans (h4.2.trans (k3.trans h2.2))
  have hsize : x'.buf.size = x2.buf.size := by rw [hbuf, k1]
  have hreal : x'.real = target x'.buf := by rw [r5, b5]
  have q1 : wsClearIfNeeded t x' = .ok () x' := by
    unfold wsClearIfNeeded
    rw [sm_bind, sm_get]
    dsimp only
    rw [hclear]
    rfl
  have q2 : onT (winClearAttributes t) x' = .ok () x' :=
    onT_noop (winSetAttributes_noop (t5.trans t4))
  have q3 : wsDrawLoop u t (x'.buf.size.area + 1) (0, x'.buf.size.area) ⟨none, none, .empty⟩ x' =
      .ok () x' := by
    rw [hsize]
    exact k5 x' hbuf _ _ (by omega)
  have q4 : wsPlaceCursor x' = .ok () x' := by
    rw [wsPlaceCursor_eq x' (by rw [hsize]; exact hi2.size)]
    exact wsMoveCursor_noop hreal
  unfold wsRefresh
  rw [bind_noop q1, bind_noop q2, sm_bind, sm_get]
  dsimp only
  rw [bind_noop q3, bind_noop q2, q4]

end Mortal
