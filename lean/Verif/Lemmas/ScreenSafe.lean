import Verif.Lemmas.Screen

/-! # `refresh` returns, and everything it hands over is delivered or pending -/

namespace Mortal
open Spec

/-- `P` holds of the resulting state; the call does not panic or loop for ever by itself. -/
def Fine (o : Outcome Scr) (P : Scr → Prop) : Prop :=
  match o with
  | .ok s => P s
  | .err _ s => P s
  | .stop x => x = .blocked

theorem Fine.andThen {o : Outcome Scr} {P : Scr → Prop} {f : Scr → Outcome Scr}
    (h : Fine o P) (hf : ∀ s, P s → Fine (f s) P) : Fine (o >>? f) P := by
  cases o with
  | ok s => exact hf s h
  | err e s => exact h
  | stop w => exact h

/-- The grid is intact, only the back buffer may have changed, and nothing got lost. -/
structure Ready (env : WEnv) (b : Buf) (s : Scr) : Prop where
  dlv : Delivered env s.w
  inv : s.buf.Inv
  keep : s.buf = { b with back := s.buf.back }

/-- A call of the writer that never panics and loses nothing. -/
def Sound (env : WEnv) (f : WS → Outcome WS) : Prop :=
  ∀ w, Delivered env w → match f w with
    | .ok w' => Delivered env w'
    | .err _ w' => Delivered env w'
    | .stop x => x = .blocked

theorem sound_of {env : WEnv} {f : WS → Outcome WS}
    (h1 : ∀ w, Delivered env w → Always (f w) (Delivered env))
    (h2 : ∀ w, Delivered env w → ∀ x, f w = .stop x → x = .blocked) : Sound env f := by
  intro w hw
  have := h1 w hw
  cases e : f w with
  | ok w' => rw [e] at this; exact this w' rfl
  | err e1 w' => rw [e] at this; exact this w' rfl
  | stop x => exact h2 w hw x e

theorem fine_onW {env : WEnv} {f : WS → Outcome WS} (hf : Sound env f) {b : Buf} {s : Scr}
    (h : Ready env b s) : Fine (s.onW f) (Ready env b) := by
  have := hf s.w h.dlv
  rw [onW_def]
  cases e : f s.w with
  | ok w' => rw [e] at this; exact ⟨this, h.inv, h.keep⟩
  | err e1 w' => rw [e] at this; exact ⟨this, h.inv, h.keep⟩
  | stop x => rw [e] at this; exact this

theorem expand_noStop {env : WEnv} {c : Cap} {ps : List Nat} {f : List Nat → Bytes × Bool} {w : WS}
    (x : Stop) : expand env c ps f w ≠ .stop x := by
  unfold expand
  rcases f ps with ⟨b, good⟩
  cases good <;> intro h <;> cases h

theorem sound_clear (env : WEnv) : Sound env (clearAttributes env) := by
  refine sound_of (fun w hw => inv_clear (delivered_inv env) w hw) fun w _ x e => ?_
  have := clear_post (F := False) (env := env) (s := w) (t := w.theme) ⟨rfl, fun h => h.elim⟩
  rw [e] at this
  exact this.elim

theorem sound_setAttrs (env : WEnv) (fg bg : Option Color) (st : Style) :
    Sound env (setAttrs env fg bg st) := by
  refine sound_of (fun w hw => inv_setAttrs (delivered_inv env) fg bg st w hw) fun w _ x e => ?_
  have := setAttrs_post (F := False) (env := env) fg bg st (s := w) (t := w.theme)
    ⟨rfl, fun h => h.elim⟩
  rw [e] at this
  exact this.elim

theorem sound_req (env : WEnv) (c : Cap) (ps : List Nat) : Sound env (expandReq env c ps) := by
  refine sound_of (fun w hw => inv_expandReq (delivered_inv env) c ps w hw) fun w _ x e => ?_
  unfold expandReq at e
  split at e
  · exact absurd e (expand_noStop x)
  · cases e

theorem sound_move (env : WEnv) (p : Cursor) : Sound env (moveCursor env p) := by
  refine sound_of (fun w hw => inv_moveCursor (delivered_inv env) p w hw) fun w _ x e => ?_
  unfold moveCursor at e
  split at e
  · split at e
    · exact absurd e (expand_noStop x)
    · split at e
      · exact absurd e (expand_noStop x)
      · cases e
  · exact absurd e (expand_noStop x)
  · cases e

theorem sound_write (env : WEnv) (b : Bytes) : Sound env (writeBytes b) := by
  refine sound_of (fun w hw => (delivered_inv env).write b w hw) fun w hw x e => ?_
  have := writeBytes_whole b w hw.1
  rw [e] at this
  exact this

theorem sound_flush (env : WEnv) : Sound env flush := by
  refine sound_of (fun w hw => (delivered_inv env).flush w hw) fun w hw x e => ?_
  have := flush_whole w hw.1
  rw [e] at this
  exact this

theorem fine_move {env : WEnv} {b : Buf} {s : Scr} (h : Ready env b s) (p : Cursor) :
    Fine (s.moveCursor env p) (Ready env b) := by
  unfold Scr.moveCursor
  split
  · exact (fine_onW (sound_move env p) h).andThen fun s h => ⟨h.dlv, h.inv, h.keep⟩
  · exact h

theorem onW_real {f : WS → Outcome WS} {s s' : Scr} (h : s.onW f = .ok s') :
    s'.real = s.real := by
  rw [onW_def] at h
  cases e : f s.w with
  | ok w => rw [e] at h; cases h; rfl
  | err e1 w => rw [e] at h; cases h
  | stop x => rw [e] at h; cases h

theorem Fine.next {o : Outcome Scr} {P : Scr → Prop} {f : Scr → Outcome Scr}
    (h : Fine o P) (hf : ∀ s, o = .ok s → P s → Fine (f s) P) : Fine (o >>? f) P := by
  cases o with
  | ok s => exact hf s rfl h
  | err e s => exact h
  | stop w => exact h

theorem move_real {env : WEnv} {p : Cursor} {s s' : Scr} (h : s.moveCursor env p = .ok s') :
    s'.real = p := by
  unfold Scr.moveCursor at h
  split at h
  · cases e : s.onW (Mortal.moveCursor env p) with
    | ok s1 => rw [e, andThen_ok] at h; cases h; rfl
    | err e1 s1 => rw [e] at h; cases h
    | stop x => rw [e] at h; cases h
  · rename_i hr
    cases h
    simpa using hr

theorem fine_draw {env : WEnv} {b : Buf} {s : Scr} (h : Ready env b s) {p : Cursor}
    (hp : p.column < usizeMax) (c : Cell) : Fine (s.drawCell env p c) (Ready env b) := by
  unfold Scr.drawCell
  cases e1 : s.moveCursor env p with
  | stop x => have := fine_move h p; rw [e1] at this; exact this
  | err e s1 => have := fine_move h p; rw [e1] at this; exact this
  | ok s1 =>
    have h1 := fine_move h p
    rw [e1] at h1
    have r1 := move_real e1
    rw [andThen_ok]
    cases e2 : s1.onW (setAttrs env c.fg c.bg c.style) with
    | stop x => have := fine_onW (sound_setAttrs env c.fg c.bg c.style) h1; rw [e2] at this; exact this
    | err e s2 => have := fine_onW (sound_setAttrs env c.fg c.bg c.style) h1; rw [e2] at this; exact this
    | ok s2 =>
      have h2 := fine_onW (sound_setAttrs env c.fg c.bg c.style) h1
      rw [e2] at h2
      have r2 := onW_real e2
      rw [andThen_ok]
      refine (fine_onW (sound_write env _) h2).next fun s3 e3 h3 => ?_
      have r3 := onW_real e3
      have : uadd s3.real.column 1 = some (p.column + 1) := by
        rw [r3, r2, r1]; unfold uadd; rw [if_pos (by omega)]
      rw [this]
      exact ⟨h3.dlv, h3.inv, h3.keep⟩

theorem ready_mark {env : WEnv} {b : Buf} {s : Scr} (h : Ready env b s) (i : Nat) (c : Cell) :
    Ready env b (s.mark i c) := by
  refine ⟨h.dlv, ⟨h.inv.size, h.inv.len, ?_, h.inv.text⟩, ?_⟩
  · show (s.buf.back.set i c).length = _
    rw [List.length_set]; exact h.inv.backLen
  · show { s.buf with back := s.buf.back.set i c } = _
    rw [h.keep]
    rfl

theorem fine_loop {u : UEnv} {env : WEnv} {b : Buf} :
    ∀ (m n f idx : Nat) (s : Scr), n ≤ m → n < f → s.buf.buffer.length = idx + n →
      Ready env b s → Fine (s.drawLoop u env f (idx, n)) (Ready env b) := by
  intro m
  induction m with
  | zero =>
    intro n f idx s hm hf hlen h
    obtain rfl : n = 0 := by omega
    obtain ⟨f, rfl⟩ : ∃ g, f = g + 1 := ⟨f - 1, by omega⟩
    rw [drawLoop_done]
    exact h
  | succ m ih =>
    intro n f idx s hm hf hlen h
    obtain ⟨f, rfl⟩ : ∃ g, f = g + 1 := ⟨f - 1, by omega⟩
    cases n with
    | zero => rw [drawLoop_done]; exact h
    | succ n =>
      have hlt : idx < s.buf.buffer.length := by omega
      have hb : s.buf.buffer[idx]? = some s.buf.buffer[idx] := List.getElem?_eq_getElem hlt
      have hlt' : idx < s.buf.back.length := by rw [h.inv.backLen, ← h.inv.len]; exact hlt
      have hk : s.buf.back[idx]? = some s.buf.back[idx] := List.getElem?_eq_getElem hlt'
      generalize s.buf.buffer[idx] = c at hb
      generalize s.buf.back[idx] = old at hk
      have hne : c.text ≠ [] := h.inv.text c (List.mem_of_getElem? hb)
      have hsk : skipOf u c n ≤ n := by unfold skipOf; split <;> omega
      by_cases hco : c = old
      · subst hco
        rw [drawLoop_same hb hne hk]
        exact ih (n - skipOf u c n) (f + 1) (idx + 1 + skipOf u c n) s (by omega) (by omega)
          (by omega) h
      · rw [drawLoop_draw hb hne hk hco (by have := h.inv.size.2.1; omega)]
        refine (fine_draw (ready_mark h idx c) ?_ c).andThen fun s1 h1 => ?_
        · have : (posOf s.buf.size idx).column < s.buf.size.columns :=
            Nat.mod_lt _ h.inv.size.2.1
          have := h.inv.size.2.2.2
          omega
        · refine ih (n - skipOf u c n) f (idx + 1 + skipOf u c n) s1 (by omega) (by omega) ?_ h1
          have e1 : s1.buf.buffer = b.buffer := by rw [h1.keep]
          have e2 : s.buf.buffer = b.buffer := by rw [h.keep]
          rw [e1, ← e2]; omega

theorem fine_refresh {u : UEnv} {env : WEnv} {b : Buf} {s : Scr} (h : Ready env b s) :
    Fine (s.refresh u env) (Ready env b) := by
  unfold Scr.refresh
  have h1 : Fine (s.clearIfNeeded env) (Ready env b) := by
    unfold Scr.clearIfNeeded
    split
    · exact (fine_onW (sound_req env _ _) h).andThen fun s h => ⟨h.dlv, h.inv, h.keep⟩
    · exact h
  refine (h1.andThen fun s h => fine_onW (sound_clear env) h).andThen fun s h => ?_
  have hl : Fine (s.drawLoop u env (s.buf.size.area + 1) (0, s.buf.size.area)) (Ready env b) :=
    fine_loop _ _ _ 0 s (Nat.le_refl _) (Nat.lt_succ_self _) (by
      rw [h.inv.len]; simp [Size.area]) h
  refine ((hl.andThen fun s h => fine_onW (sound_clear env) h).andThen fun s h => ?_).andThen
    fun s h => fine_onW (sound_flush env) h
  rw [placeCursor_eq env s h.inv.size]
  exact fine_move h _

end Mortal
