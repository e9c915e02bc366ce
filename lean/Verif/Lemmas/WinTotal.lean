import Verif.Lemmas.WinNoPanic
import Verif.Lemmas.WinLive

/-!
# A refresh on Windows comes to an end

It returns, or waits for the console.
-/

namespace Mortal
open Spec

/-- The code returns from a state, unless it waits for the console. -/
def ReturnsAt {σ α : Type} (m : SM σ α) (s : σ) : Prop := ∀ w, m s = .stop w → w = .blocked

theorem ReturnsAt.bind {σ α β : Type} {m : SM σ α} {f : α → SM σ β} {s : σ} (h : ReturnsAt m s)
    (h' : ∀ a s', m s = .ok a s' → ReturnsAt (f a) s') : ReturnsAt (m >>= f) s := by
  intro w hw
  rw [sm_bind] at hw
  cases e : m s with
  | ok a s' => rw [e] at hw; exact h' a s' e w hw
  | err e' s' => rw [e] at hw; cases hw
  | stop v => rw [e] at hw; cases hw; exact h _ e

theorem returns_pure {σ α : Type} (a : α) (s : σ) : ReturnsAt (pure a : SM σ α) s := fun _ h => by cases h
theorem returns_get {σ : Type} (s : σ) : ReturnsAt (SM.get : SM σ σ) s := fun _ h => by cases h
theorem returns_modify {σ : Type} (f : σ → σ) (s : σ) : ReturnsAt (SM.modify f) s := fun _ h => by cases h
theorem returns_throw {σ α : Type} (e : IoErr) (s : σ) : ReturnsAt (SM.throw e : SM σ α) s :=
  fun _ h => by cases h
theorem returns_blocked {σ α : Type} (s : σ) : ReturnsAt (SM.halt .blocked : SM σ α) s :=
  fun _ h => by cases h; rfl
theorem returns_some {σ α : Type} (a : α) (s : σ) : ReturnsAt (SM.ofPanics (some a) : SM σ α) s :=
  fun _ h => by cases h

theorem returns_conCall (c : ConCall) (s : WinSt) : ReturnsAt (conCall c) s := by
  intro w h
  unfold conCall at h
  split at h
  · cases h; rfl
  · cases h

theorem returns_boolCall (c : ConCall) (s : WinSt) : ReturnsAt (boolCall c) s := by
  unfold boolCall
  refine .bind (returns_conCall c s) fun a s' _ => ?_
  cases a <;> first | exact returns_pure _ _ | exact returns_throw _ _ | exact returns_blocked _

theorem returns_onT {α : Type} {m : WM α} {x : WScr} (h : ReturnsAt m x.w) : ReturnsAt (onT m) x := by
  intro w hw
  unfold onT at hw
  split at hw
  · cases hw
  · cases hw
  · rename_i v e; cases hw; exact h _ e

theorem returns_setAttributes (t : WTerm) (th : Theme) (s : WinSt) :
    ReturnsAt (winSetAttributes t th) s := by
  unfold winSetAttributes
  refine .bind (returns_get s) fun a s' _ => ?_
  split
  · refine .bind (returns_modify _ _) fun _ s2 _ => ?_
    unfold updateAttrs
    exact .bind (returns_get _) fun _ _ _ => returns_boolCall _ _
  · exact returns_pure _ _

theorem returns_writeLoop (h : Nat) : ∀ (f : Nat) (buf : List (BitVec 16)) (s : WinSt),
    ReturnsAt (writeLoop h f buf) s
  | 0, buf, s => by
    unfold writeLoop
    split
    · exact returns_blocked _
    · exact returns_pure _ _
  | f + 1, buf, s => by
    unfold writeLoop
    split
    · refine .bind (returns_conCall _ s) fun a s' _ => ?_
      cases a <;> first | exact returns_writeLoop h f _ _ | exact returns_throw _ _ | exact returns_blocked _
    · exact returns_pure _ _

theorem returns_move (p : Cursor) (x : WScr) : ReturnsAt (wsMoveCursor p) x := by
  unfold wsMoveCursor
  refine .bind (returns_get x) fun a s' _ => ?_
  split
  · refine .bind (returns_onT ?_) fun _ s2 _ => returns_modify _ _
    unfold winMoveCursor moveAbs
    exact .bind (returns_get _) fun _ _ _ => returns_boolCall _ _
  · exact returns_pure _ _

theorem returns_apply (t : WTerm) (a b : Theme) (x : WScr) : ReturnsAt (applyAttrs t a b) x := by
  unfold applyAttrs
  split
  · exact returns_onT (returns_setAttributes _ _ _)
  · exact returns_pure _ _

/-- The next cell to draw can always be found. -/
theorem nextCell_total (u : UEnv) : ∀ (n idx : Nat) (b : Buf), b.Inv → idx + n ≤ b.buffer.length →
    ∃ b' r found, b.nextCell u n idx = some (b', r, found) ∧ b'.Inv ∧ b'.size = b.size ∧
      b'.buffer = b.buffer ∧ r.1 + r.2 ≤ b.buffer.length ∧
      ∀ p c, found = some (p, c) → r.2 < n ∧ p.column < b.size.columns := by
  intro n
  induction n using Nat.strongRecOn with
  | ind n ih =>
    intro idx b hb hi
    cases n with
    | zero => exact ⟨b, (idx, 0), none, rfl, hb, rfl, rfl, hi, fun _ _ e => by cases e⟩
    | succ n =>
      have h1 : idx < b.buffer.length := by omega
      have h2 : idx < b.back.length := by
        have := hb.len; have := hb.backLen; omega
      have g1 := List.getElem?_eq_getElem h1
      have g2 := List.getElem?_eq_getElem h2
      have ht := hb.text _ (List.getElem_mem h1)
      have hk : skipOf u b.buffer[idx] n ≤ n := by unfold skipOf; split <;> omega
      by_cases hne : b.buffer[idx] = b.back[idx]
      · rw [nextCell_same g1 ht (by rw [g2, hne])]
        obtain ⟨b', r, found, e1, e2, e3, e4, e5, e6⟩ :=
          ih (n - skipOf u b.buffer[idx] n) (by omega) (idx + 1 + skipOf u b.buffer[idx] n) b hb (by omega)
        exact ⟨b', r, found, e1, e2, e3, e4, e5, fun p c e => ⟨by have := (e6 p c e).1; omega, (e6 p c e).2⟩⟩
      · have hc : b.size.columns ≠ 0 := by have := hb.size.2.1; omega
        refine ⟨_, _, _, nextCell_draw g1 ht g2 hne hc, ?_, rfl, rfl, ?_, ?_⟩
        · exact ⟨hb.size, hb.len, by rw [List.length_set]; exact hb.backLen, hb.text⟩
        · dsimp only; omega
        · intro p c e
          cases e
          refine ⟨by dsimp only; omega, ?_⟩
          exact Nat.mod_lt _ (by omega)

theorem onT_data {α : Type} {m : WM α} {x x' : WScr} {a : α} (h : onT m x = .ok a x') :
    x'.toSData = x.toSData := (onT_ok h).2

theorem move_data {p : Cursor} {x x' : WScr} (h : wsMoveCursor p x = .ok () x') :
    x'.buf = x.buf ∧ x'.real = p := by
  unfold wsMoveCursor at h
  rw [sm_bind, sm_get] at h
  dsimp only at h
  split at h
  · obtain ⟨a, x1, e1, e2⟩ := sm_bind_ok h
    cases e2
    exact ⟨(show x1.buf = x.buf from congrArg SData.buf (onT_data e1)), rfl⟩
  · rename_i hp
    cases h
    exact ⟨rfl, Decidable.not_not.mp hp⟩

theorem apply_data {t : WTerm} {a b : Theme} {x x' : WScr} (h : applyAttrs t a b x = .ok () x') :
    x'.toSData = x.toSData := by
  unfold applyAttrs at h
  split at h
  · exact onT_data h
  · cases h; rfl

theorem returns_drawCell {t : WTerm} {src : Theme} {p : Cursor} {c : Cell} {x : WScr}
    (hp : p.column + 1 ≤ usizeMax) : ReturnsAt (wsDrawCell t src p c) x ∧
    ∀ x', wsDrawCell t src p c x = .ok () x' → x'.buf = x.buf := by
  unfold wsDrawCell
  constructor
  · refine .bind (returns_move _ _) fun a x1 e1 => .bind (returns_apply _ _ _ _) fun a2 x2 e2 =>
      .bind (returns_onT ?_) fun a3 x3 e3 => ?_
    · unfold winWriteStr
      exact .bind (returns_get _) fun _ _ _ => returns_writeLoop _ _ _ _
    · have h3 : x3.real = p := by
        rw [show x3.real = _ from congrArg SData.real (onT_data e3),
          show x2.real = _ from congrArg SData.real (apply_data e2), (move_data e1).2]
      refine .bind (returns_get _) fun s x4 e4 => ?_
      cases e4
      rw [h3, show uadd p.column 1 = some (p.column + 1) by unfold uadd; rw [if_pos hp]]
      exact .bind (returns_some _ _) fun _ _ _ => returns_modify _ _
  · intro x' h
    obtain ⟨a1, x1, e1, h⟩ := sm_bind_ok h
    obtain ⟨a2, x2, e2, h⟩ := sm_bind_ok h
    obtain ⟨a3, x3, e3, h⟩ := sm_bind_ok h
    obtain ⟨a4, x4, e4, h⟩ := sm_bind_ok h
    cases e4
    obtain ⟨a5, x5, e5, h⟩ := sm_bind_ok h
    have e5 : x5 = x3 := by
      cases hc : uadd x3.real.column 1 with
      | none => rw [hc] at e5; cases e5
      | some c => rw [hc] at e5; cases e5; rfl
    cases h
    show x5.buf = x.buf
    rw [e5, show x3.buf = _ from congrArg SData.buf (onT_data e3),
      show x2.buf = _ from congrArg SData.buf (apply_data e2), (move_data e1).1]

theorem returns_drawLoop (u : UEnv) (t : WTerm) : ∀ (f idx n : Nat) (src : Theme) (x : WScr),
    x.buf.Inv → idx + n ≤ x.buf.buffer.length → n < f →
    ReturnsAt (wsDrawLoop u t f (idx, n) src) x ∧
    ∀ x', wsDrawLoop u t f (idx, n) src x = .ok () x' → x'.buf.Inv ∧ x'.buf.size = x.buf.size
  | 0, idx, n, src, x, _, _, hf => by omega
  | f + 1, idx, n, src, x, hb, hi, hf => by
    obtain ⟨b', r, found, e1, e2, e3, e4, e5, e6⟩ := nextCell_total u n idx x.buf hb hi
    have hu : wsDrawLoop u t (f + 1) (idx, n) src x =
        (match found with
        | none => (pure () : SWM Unit)
        | some (pos, cell) => (do
          wsDrawCell t src pos cell
          wsDrawLoop u t f r (cellTheme cell) : SWM Unit)) { x with buf := b' } := by
      conv => lhs; unfold wsDrawLoop
      rw [sm_bind, sm_get]
      dsimp only
      rw [e1, sm_bind, sm_ofPanics_some]
      cases found <;> rfl
    unfold ReturnsAt
    rw [hu]
    cases found with
    | none =>
      refine ⟨returns_pure _ _, fun x' e => ?_⟩
      cases e
      exact ⟨e2, e3⟩
    | some v =>
      obtain ⟨pos, cell⟩ := v
      obtain ⟨g1, g2⟩ := e6 pos cell rfl
      have hcol : pos.column + 1 ≤ usizeMax := by have := hb.size.2.2.2; omega
      obtain ⟨d1, d2⟩ := returns_drawCell (t := t) (src := src) (p := pos) (c := cell)
        (x := { x with buf := b' }) hcol
      have hrec : ∀ x1, wsDrawCell t src pos cell { x with buf := b' } = .ok () x1 →
          ReturnsAt (wsDrawLoop u t f r (cellTheme cell)) x1 ∧
          ∀ x', wsDrawLoop u t f r (cellTheme cell) x1 = .ok () x' → x'.buf.Inv ∧ x'.buf.size = x.buf.size := by
        intro x1 h1
        have hx1 : x1.buf = b' := d2 x1 h1
        obtain ⟨k1, k2⟩ := returns_drawLoop u t f r.1 r.2 (cellTheme cell) x1 (by rw [hx1]; exact e2)
          (by rw [hx1, e4]; exact e5) (by omega)
        exact ⟨k1, fun x' h' => ⟨(k2 x' h').1, by rw [(k2 x' h').2, hx1, e3]⟩⟩
      refine ⟨ReturnsAt.bind d1 fun _ x1 h1 => (hrec x1 h1).1, fun x' h => ?_⟩
      obtain ⟨_, x1, h1, h2⟩ := sm_bind_ok h
      exact (hrec x1 h1).2 x' h2

/-- Code that does not run out of the bound on its rounds. -/
def NeverFuel {α : Type} (m : WM α) : Prop := ∀ s, m s ≠ .stop .fuel

theorem NeverFuel.bind {α β : Type} {m : WM α} {f : α → WM β} (h : NeverFuel m)
    (h' : ∀ a, NeverFuel (f a)) : NeverFuel (m >>= f) := by
  intro s hs
  rw [sm_bind] at hs
  cases e : m s with
  | ok a s' => rw [e] at hs; exact h' a s' hs
  | err e' s' => rw [e] at hs; cases hs
  | stop v => rw [e] at hs; cases hs; exact h s e

theorem neverFuel_returns {α : Type} {m : WM α} (h : ∀ s, ReturnsAt m s) : NeverFuel m :=
  fun s e => by cases h s _ e

theorem neverFuel_ofPanics {α : Type} (y : Panics α) : NeverFuel (SM.ofPanics y : WM α) := by
  intro s h
  cases y <;> cases h

theorem neverFuel_clearScreen (t : WTerm) : NeverFuel (winClearScreen t) := by
  have hb : ∀ c, NeverFuel (boolCall c) := fun c => neverFuel_returns (returns_boolCall c)
  have hp : ∀ {α : Type} (a : α), NeverFuel (pure a : WM α) := fun a => neverFuel_returns (returns_pure a)
  have hg : NeverFuel (SM.get : WM WinSt) := neverFuel_returns returns_get
  have hm : ∀ p, NeverFuel (moveAbs p) := fun p => .bind hg fun _ => hb _
  have hc : ∀ a b, NeverFuel (clearArea t a b) := fun a b => .bind hg fun _ => .bind (hb _) fun _ => hb _
  have hi : ∀ h, NeverFuel (consoleInfo h) := by
    intro h
    refine neverFuel_returns fun s => ?_
    unfold consoleInfo
    refine .bind (returns_conCall _ s) fun a s' _ => ?_
    cases a <;> first | exact returns_pure _ _ | exact returns_throw _ _ | exact returns_blocked _
  have ho : ∀ {α : Type} (y : Panics α), NeverFuel (SM.ofPanics y : WM α) := fun y => neverFuel_ofPanics y
  have hw : ∀ h r d, NeverFuel (moveWindow h r d) := by
    intro h r d
    unfold moveWindow
    split
    · exact .bind (ho _) fun _ => .bind (ho _) fun _ => .bind (hb _) fun _ => hp _
    · exact hp _
  unfold winClearScreen
  refine .bind hg fun _ => .bind (hi _) fun _ => .bind (ho _) fun _ => .bind (ho _) fun _ => ?_
  split
  · exact .bind (ho _) fun _ => .bind (hc _ _) fun _ => hm _
  · refine .bind (ho _) fun _ => .bind (ho _) fun _ => .bind (ho _) fun _ => .bind (ho _) fun _ =>
      .bind (hw _ _ _) fun _ => .bind (ho _) fun _ => .bind ?_ fun _ => hm _
    unfold SM.when
    split
    · exact .bind (ho _) fun _ => hb _
    · exact hp _

/-- A refresh returns. -/
theorem returns_refresh (u : UEnv) (t : WTerm) {x : WScr} (hb : x.buf.Inv)
    (hi : ∀ st l i, x.w.os = st :: l → st.ans = .info i →
      ∃ o : OutBuf, o.Tells i ∧ BufSize o.glyph.size ∧ RectIn o.window o.glyph.size) :
    ReturnsAt (wsRefresh u t) x := by
  have hset : ∀ (th : Theme) (y : WScr), ReturnsAt (onT (winSetAttributes t th)) y :=
    fun th y => returns_onT (returns_setAttributes _ _ _)
  unfold wsRefresh winClearAttributes
  refine .bind ?_ fun _ x1 e1 => .bind (hset _ _) fun _ x2 e2 => .bind (returns_get _) fun s x3 e3 => ?_
  · unfold wsClearIfNeeded SM.when
    refine .bind (returns_get _) fun s x1 e => ?_
    cases e
    split
    · refine .bind (returns_onT fun w hw => ?_) fun _ _ _ => returns_modify _ _
      cases w with
      | panic => exact absurd hw (neverPanics_clearScreen hi)
      | fuel => exact absurd hw (neverFuel_clearScreen t _)
      | blocked => rfl
    · exact returns_pure _ _
  · cases e3
    have h1 : x1.buf = x.buf := by
      unfold wsClearIfNeeded SM.when at e1
      rw [sm_bind, sm_get] at e1
      dsimp only at e1
      split at e1
      · obtain ⟨_, x5, g1, g2⟩ := sm_bind_ok e1
        cases g2
        exact (show x5.buf = x.buf from congrArg SData.buf (onT_data g1))
      · cases e1; rfl
    have h2 : x2.buf = x.buf := (congrArg SData.buf (onT_data e2)).trans h1
    have hlen := hb.len
    obtain ⟨l1, l2⟩ := returns_drawLoop u t (x2.buf.size.area + 1) 0 x2.buf.size.area ⟨none, none, .empty⟩ x2
      (by rw [h2]; exact hb) (by rw [h2, hlen]; unfold Size.area; omega) (by omega)
    refine .bind l1 fun _ x4 e4 => .bind (hset _ _) fun _ x5 e5 => ?_
    obtain ⟨k1, k2⟩ := l2 x4 e4
    have h5 : x5.buf = x4.buf := congrArg SData.buf (onT_data e5)
    unfold wsPlaceCursor
    refine .bind (returns_get _) fun s x6 e6 => ?_
    cases e6
    split
    · have hz := k1.size
      have hl : Cursor.last x5.buf.size = some ⟨x5.buf.size.lines - 1, x5.buf.size.columns - 1⟩ := by
        rw [h5]
        unfold Cursor.last usub
        rw [if_pos (by have := hz.1; omega), if_pos (by have := hz.2.1; omega)]
        rfl
      rw [hl]
      exact .bind (returns_some _ _) fun _ _ _ => returns_move _ _
    · exact returns_move _ _

end Mortal
