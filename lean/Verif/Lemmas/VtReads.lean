import Verif.Spec.VtLive
import Verif.Lemmas.VtTame

/-! # Bytes, while the window changes its size -/

namespace Mortal
open Spec

/-- The state of a terminal that does not depend on its size. -/
structure VSame (v w : Vt) : Prop where
  attrs : w.t.attrs = v.t.attrs
  bce : w.t.bce = v.t.bce
  alt : w.alt = v.alt
  saved : w.saved.2.2 = v.saved.2.2
  ps : w.ps = v.ps
  visible : w.visible = v.visible
  keypad : w.keypad = v.keypad
  mode : w.mode = v.mode

theorem VSame.refl (v : Vt) : VSame v v := ⟨rfl, rfl, rfl, rfl, rfl, rfl, rfl, rfl⟩

theorem VSame.trans {a b c : Vt} (h1 : VSame a b) (h2 : VSame b c) : VSame a c :=
  ⟨h2.attrs.trans h1.attrs, h2.bce.trans h1.bce, h2.alt.trans h1.alt, h2.saved.trans h1.saved,
    h2.ps.trans h1.ps, h2.visible.trans h1.visible, h2.keypad.trans h1.keypad, h2.mode.trans h1.mode⟩

theorem VSame.symm {a b : Vt} (h : VSame a b) : VSame b a :=
  ⟨h.attrs.symm, h.bce.symm, h.alt.symm, h.saved.symm, h.ps.symm, h.visible.symm,
    h.keypad.symm, h.mode.symm⟩

/-- Characters leave the modes alone. -/
theorem char_modes (u : UEnv) (crlf : Bool) (v : Vt) (ch : Char) :
    (v.char u crlf ch).visible = v.visible ∧ (v.char u crlf ch).keypad = v.keypad ∧
      (v.char u crlf ch).mode = v.mode := by
  have idx : ∀ v : Vt, v.index.visible = v.visible ∧ v.index.keypad = v.keypad ∧ v.index.mode = v.mode := by
    intro v
    unfold Vt.index
    dsimp only
    split <;> exact ⟨rfl, rfl, rfl⟩
  have put : ∀ (v : Vt) (w : Bool), (v.putWide ch w).visible = v.visible ∧
      (v.putWide ch w).keypad = v.keypad ∧ (v.putWide ch w).mode = v.mode := by
    intro v w
    unfold Vt.putWide
    dsimp only
    split <;> split <;> exact ⟨rfl, rfl, rfl⟩
  unfold Vt.char
  split
  · unfold Vt.control
    split
    · exact ⟨rfl, rfl, rfl⟩
    · split
      · split
        · exact idx v.cr
        · exact idx v
      · split
        · exact ⟨rfl, rfl, rfl⟩
        · split <;> exact ⟨rfl, rfl, rfl⟩
  · unfold Vt.print
    split
    · unfold Vt.join
      split
      · exact ⟨rfl, rfl, rfl⟩
      · split <;> exact ⟨rfl, rfl, rfl⟩
    · dsimp only
      split
      · obtain ⟨a, b, c⟩ := put v.cr.index (decide (2 ≤ u.w ch))
        obtain ⟨d, e, f⟩ := idx v.cr
        exact ⟨a.trans d, b.trans e, c.trans f⟩
      · exact put v _

/-- Characters change none of that. -/
theorem same_char (u : UEnv) (crlf : Bool) (v : Vt) (ch : Char) : VSame v (v.char u crlf ch) := by
  have f := frame_char u crlf v ch
  obtain ⟨m1, m2, m3⟩ := char_modes u crlf v ch
  exact ⟨attrs_char u crlf v ch, f.bce, f.alt, by rw [f.saved], f.ps, m1, m2, m3⟩

theorem same_ps {v w : Vt} (h : VSame v w) (p : PState) :
    VSame ({ v with ps := p } : Vt) { w with ps := p } := ⟨h.attrs, h.bce, h.alt, h.saved, rfl, h.visible, h.keypad, h.mode⟩

theorem same_chars {u : UEnv} {crlf : Bool} {v w : Vt} (h : VSame v w) (ch : Char) :
    VSame (v.char u crlf ch) (w.char u crlf ch) :=
  ((same_char u crlf v ch).symm.trans h).trans (same_char u crlf w ch)

theorem same_collect {u : UEnv} {crlf : Bool} {v w : Vt} (h : VSame v w) (bs : Bytes) :
    VSame (v.collect u crlf bs) (w.collect u crlf bs) := by
  unfold Vt.collect
  split
  · exact same_chars (same_ps h _) _
  · exact same_ps h _
  · exact same_chars (same_ps h _) _

theorem same_setMode {v w : Vt} (h : VSame v w) (on : Bool) (n : Nat) :
    VSame (v.setMode on n) (w.setMode on n) := by
  obtain ⟨h1, h2, h3, h4, h5, h6, h7, h8⟩ := h
  unfold Vt.setMode
  split
  · exact ⟨h1, h2, h3, h4, h5, rfl, h7, h8⟩
  · split
    · split
      · unfold Vt.toAlternate
        dsimp only
        rw [h3]
        split
        · exact ⟨h1, h2, rfl, h1, h5, h6, h7, h8⟩
        · exact ⟨h1, h2, rfl, h1, h5, h6, h7, h8⟩
      · unfold Vt.fromAlternate
        dsimp only
        rw [h3]
        split
        · exact ⟨h4, h2, rfl, h4, h5, h6, h7, h8⟩
        · exact ⟨h4, h2, h3, h4, h5, h6, h7, h8⟩
    · exact ⟨h1, h2, h3, h4, h5, h6, h7, by dsimp only; rw [h8]⟩

theorem same_modes {on : Bool} : ∀ (l : List Nat) {v w : Vt}, VSame v w →
    VSame (l.foldl (Vt.setMode on) v) (l.foldl (Vt.setMode on) w)
  | [], _, _, h => h
  | n :: l, _, _, h => same_modes l (same_setMode h on n)

/-- What `ansi` does to that part of the state. -/
theorem ansi_core (v : Vt) (ps : List Nat) (final : Nat) :
    (v.ansi ps final).t.attrs = (if final = 0x6d then sgr ps v.t.attrs else v.t.attrs) ∧
    (v.ansi ps final).t.bce = v.t.bce ∧ (v.ansi ps final).alt = v.alt ∧
    (v.ansi ps final).saved = v.saved ∧ (v.ansi ps final).ps = v.ps ∧
    (v.ansi ps final).visible = v.visible ∧ (v.ansi ps final).keypad = v.keypad ∧
    (v.ansi ps final).mode = v.mode := by
  unfold Vt.ansi
  dsimp only
  by_cases h1 : final = 0x41
  · subst h1; exact ⟨rfl, rfl, rfl, rfl, rfl, rfl, rfl, rfl⟩
  by_cases h2 : final = 0x42
  · subst h2; exact ⟨rfl, rfl, rfl, rfl, rfl, rfl, rfl, rfl⟩
  by_cases h3 : final = 0x43
  · subst h3; exact ⟨rfl, rfl, rfl, rfl, rfl, rfl, rfl, rfl⟩
  by_cases h4 : final = 0x44
  · subst h4; exact ⟨rfl, rfl, rfl, rfl, rfl, rfl, rfl, rfl⟩
  by_cases h5 : final = 0x48
  · subst h5; exact ⟨rfl, rfl, rfl, rfl, rfl, rfl, rfl, rfl⟩
  by_cases h6 : final = 0x4a
  · subst h6
    rw [if_neg (by decide), if_neg (by decide), if_neg (by decide), if_neg (by decide), if_neg (by decide),
      if_pos rfl, if_neg (by decide)]
    split <;> exact ⟨rfl, rfl, rfl, rfl, rfl, rfl, rfl, rfl⟩
  by_cases h7 : final = 0x4b
  · subst h7
    rw [if_neg (by decide), if_neg (by decide), if_neg (by decide), if_neg (by decide), if_neg (by decide),
      if_neg (by decide), if_pos rfl, if_neg (by decide)]
    split <;> exact ⟨rfl, rfl, rfl, rfl, rfl, rfl, rfl, rfl⟩
  by_cases h8 : final = 0x6d
  · subst h8; exact ⟨rfl, rfl, rfl, rfl, rfl, rfl, rfl, rfl⟩
  rw [if_neg h1, if_neg h2, if_neg h3, if_neg h4, if_neg h5, if_neg h6, if_neg h7, if_neg h8, if_neg h8]
  split
  · split <;> exact ⟨rfl, rfl, rfl, rfl, rfl, rfl, rfl, rfl⟩
  · exact ⟨rfl, rfl, rfl, rfl, rfl, rfl, rfl, rfl⟩

theorem same_ansi {v w : Vt} (h : VSame v w) (ps : List Nat) (final : Nat) :
    VSame (v.ansi ps final) (w.ansi ps final) := by
  obtain ⟨a1, a2, a3, a4, a5, a6, a7, a8⟩ := ansi_core v ps final
  obtain ⟨b1, b2, b3, b4, b5, b6, b7, b8⟩ := ansi_core w ps final
  exact ⟨by rw [a1, b1, h.attrs], by rw [a2, b2, h.bce], by rw [a3, b3, h.alt], by rw [a4, b4, h.saved],
    by rw [a5, b5, h.ps], by rw [a6, b6, h.visible], by rw [a7, b7, h.keypad], by rw [a8, b8, h.mode]⟩

theorem same_dispatch {v w : Vt} (h : VSame v w) (body : Bytes) (final : Nat) :
    VSame (v.dispatch body final) (w.dispatch body final) := by
  unfold Vt.dispatch
  split
  · split
    · exact same_modes _ h
    · split
      · exact same_modes _ h
      · exact h
  · exact same_ansi h _ _

theorem same_byte {u : UEnv} {crlf : Bool} {v w : Vt} (h : VSame v w) (b : UInt8) :
    VSame (v.byte u crlf b) (w.byte u crlf b) := by
  unfold Vt.byte
  rw [h.ps]
  split
  · split
    · exact same_ps h _
    · exact same_collect h _
  · exact same_collect h _
  · split
    · exact same_ps h _
    · split
      · exact same_ps h _
      · split
        · exact ⟨h.attrs, h.bce, h.alt, h.saved, rfl, h.visible, rfl, h.mode⟩
        · split
          · exact ⟨h.attrs, h.bce, h.alt, h.saved, rfl, h.visible, rfl, h.mode⟩
          · exact same_ps h _
  · exact same_ps h _
  · split
    · exact same_ps h _
    · exact same_dispatch (same_ps h _) _ _

theorem same_feed {u : UEnv} {crlf : Bool} : ∀ (bs : Bytes) {v w : Vt}, VSame v w →
    VSame (v.feed u crlf bs) (w.feed u crlf bs)
  | [], _, _, h => h
  | b :: bs, _, _, h => by
    rw [vfeed_cons, vfeed_cons]
    exact same_feed bs (same_byte h b)

/-! ## The cursor stays on the screen -/

/-- As `Ready`, in the middle of a sequence. -/
structure VSound (v : Vt) : Prop where
  size : GoodSize v.t.size
  cur : ∃ p, v.t.cur = some p ∧ InBounds p v.t.size
  last : ∀ p, v.t.last = some p → InBounds p v.t.size

theorem vsound_ready {v : Vt} (h : v.Ready) : VSound v := ⟨h.size, h.cur, h.last⟩

theorem VSound.ground {v : Vt} (h : VSound v) : Vt.Ready { v with ps := .ground } :=
  ⟨h.size, h.cur, h.last, rfl⟩

theorem VSound.ps {v : Vt} (h : VSound v) (p : PState) : VSound { v with ps := p } :=
  ⟨h.size, h.cur, h.last⟩

theorem VSound.goto {v : Vt} (h : VSound v) {p : Cursor} (hp : InBounds p v.t.size) : VSound (v.goto p) :=
  ⟨h.size, ⟨p, rfl, hp⟩, fun q hq => (by cases hq)⟩

theorem VSound.pos {v : Vt} (h : VSound v) : InBounds v.pos v.t.size := by
  obtain ⟨p, e, hp⟩ := h.cur
  unfold Vt.pos
  rw [e]; exact hp

theorem sound_collect {u : UEnv} {crlf : Bool} {v : Vt} (h : VSound v) (bs : Bytes) :
    VSound (v.collect u crlf bs) := by
  unfold Vt.collect
  split
  · exact vsound_ready (ready_char h.ground _)
  · exact h.ps _
  · exact vsound_ready (ready_char h.ground _)

theorem sound_setMode {v : Vt} (h : VSound v) (on : Bool) (n : Nat) : VSound (v.setMode on n) := by
  have hl : 0 < v.t.size.lines := h.size.1
  have hc : 0 < v.t.size.columns := h.size.2.1
  unfold Vt.setMode
  split
  · exact ⟨h.size, h.cur, h.last⟩
  · split
    · split
      · unfold Vt.toAlternate
        dsimp only
        split
        · exact ⟨h.size, h.cur, h.last⟩
        · exact ⟨h.size, h.cur, fun p e => by cases e⟩
      · unfold Vt.fromAlternate
        dsimp only
        split
        · exact ⟨h.size, ⟨_, rfl, by show min _ _ < _; dsimp only; omega, by show min _ _ < _; dsimp only; omega⟩,
            fun p e => by cases e⟩
        · exact ⟨h.size, ⟨_, rfl, by show min _ _ < _; dsimp only; omega, by show min _ _ < _; dsimp only; omega⟩,
            fun p e => by cases e⟩
    · exact ⟨h.size, h.cur, h.last⟩

theorem sound_modes {on : Bool} : ∀ (l : List Nat) {v : Vt}, VSound v → VSound (l.foldl (Vt.setMode on) v)
  | [], _, h => h
  | n :: l, _, h => sound_modes l (sound_setMode h on n)

theorem sound_erase {v : Vt} (h : VSound v) (R : Cursor → Prop) [DecidablePred R] : VSound (v.erase R) :=
  ⟨h.size, h.cur, h.last⟩

theorem sound_ansi {v : Vt} (h : VSound v) (ps : List Nat) (final : Nat) : VSound (v.ansi ps final) := by
  have hl : 0 < v.t.size.lines := h.size.1
  have hc : 0 < v.t.size.columns := h.size.2.1
  obtain ⟨p1, p2⟩ := h.pos
  unfold Vt.ansi
  dsimp only
  split
  · refine h.goto ⟨?_, p2⟩
    show max _ _ < _
    split <;> omega
  split
  · refine h.goto ⟨?_, p2⟩
    show min _ _ < _
    split <;> omega
  split
  · refine h.goto ⟨p1, ?_⟩
    show min _ _ < _
    omega
  split
  · refine h.goto ⟨p1, ?_⟩
    show _ - _ < _
    omega
  split
  · refine h.goto ⟨?_, ?_⟩
    · show min _ _ < _; omega
    · show min _ _ < _; omega
  split
  · split <;> first | exact sound_erase h _ | exact h
  split
  · split <;> first | exact sound_erase h _ | exact h
  split
  · exact ⟨h.size, h.cur, h.last⟩
  split
  · split
    · exact ⟨h.size, ⟨_, rfl, hl, hc⟩, fun q hq => (by cases hq)⟩
    · exact h
  · exact h

theorem sound_byte {u : UEnv} {crlf : Bool} {v : Vt} (h : VSound v) (b : UInt8) :
    VSound (v.byte u crlf b) := by
  unfold Vt.byte
  split
  · split
    · exact h.ps _
    · exact sound_collect h _
  · exact sound_collect h _
  · split
    · exact h.ps _
    · split
      · exact h.ps _
      · split
        · exact ⟨h.size, h.cur, h.last⟩
        · split
          · exact ⟨h.size, h.cur, h.last⟩
          · exact h.ps _
  · exact h.ps _
  · split
    · exact h.ps _
    · unfold Vt.dispatch
      split
      · split
        · exact sound_modes _ (h.ps _)
        · split
          · exact sound_modes _ (h.ps _)
          · exact h.ps _
      · exact sound_ansi (h.ps _) _ _

/-- What is known when the window may have changed its size meanwhile. -/
theorem reads_known {u : UEnv} {crlf : Bool} {v v' : Vt} {bs : Bytes} (hr : Vt.Reads u crlf v bs v')
    (h : VSound v) : VSound v' ∧ VSame (v.feed u crlf bs) v' := by
  induction hr with
  | done v => exact ⟨h, VSame.refl v⟩
  | byte _ ih => exact ih (sound_byte h _)
  | resized k _ ih =>
    obtain ⟨a, b⟩ := ih ⟨k.size, k.cur, k.last⟩
    exact ⟨a, (same_feed _ ⟨k.attrs, k.bce, k.alt, by rw [k.saved], k.ps, k.visible, k.keypad, k.mode⟩).trans b⟩

end Mortal
