import Verif.Lemmas.Session

/-! # Which cells a refresh sends -/

namespace Mortal
open Spec

/-! ## Repeating a refresh -/

theorem drawCell_buf {env : WEnv} {p : Cursor} {c : Cell} {s s' : Scr}
    (h : s.drawCell env p c = .ok s') : s'.buf = s.buf ∧ s'.clear = s.clear := by
  have hon : ∀ {f : WS → Outcome WS} {s s' : Scr}, s.onW f = .ok s' →
      s'.buf = s.buf ∧ s'.clear = s.clear := by
    intro f s s' h
    rw [onW_def] at h
    cases e : f s.w with
    | ok w => rw [e] at h; cases h; exact ⟨rfl, rfl⟩
    | err e1 w => rw [e] at h; cases h
    | stop x => rw [e] at h; cases h
  have hmv : ∀ {s s' : Scr}, s.moveCursor env p = .ok s' → s'.buf = s.buf ∧ s'.clear = s.clear := by
    intro s s' h
    unfold Scr.moveCursor at h
    split at h
    · cases e : s.onW (Mortal.moveCursor env p) with
      | ok s1 => rw [e, andThen_ok] at h; have := hon e; cases h; exact this
      | err e1 s1 => rw [e] at h; cases h
      | stop x => rw [e] at h; cases h
    · cases h; exact ⟨rfl, rfl⟩
  unfold Scr.drawCell at h
  cases e1 : s.moveCursor env p with
  | err e s1 => rw [e1] at h; cases h
  | stop x => rw [e1] at h; cases h
  | ok s1 =>
    rw [e1, andThen_ok] at h
    cases e2 : s1.onW (setAttrs env c.fg c.bg c.style) with
    | err e s1 => rw [e2] at h; cases h
    | stop x => rw [e2] at h; cases h
    | ok s2 =>
      rw [e2, andThen_ok] at h
      cases e3 : s2.onW (writeBytes (encode c.text)) with
      | err e s1 => rw [e3] at h; cases h
      | stop x => rw [e3] at h; cases h
      | ok s3 =>
        rw [e3, andThen_ok] at h
        dsimp only at h
        split at h
        · cases h
        · cases h
          have a := hmv e1
          have b := hon e2
          have c := hon e3
          exact ⟨c.1.trans (b.1.trans a.1), c.2.trans (b.2.trans a.2)⟩

/-- After the loop, going over the same range again finds nothing to do. -/
theorem drawLoop_again {u : UEnv} {env : WEnv} :
    ∀ (m n f idx : Nat) (s s' : Scr), n ≤ m → n < f → s.buf.buffer.length = idx + n →
      s.buf.Inv → s.drawLoop u env f (idx, n) = .ok s' →
      s'.buf = { s.buf with back := s'.buf.back } ∧ s'.buf.back.length = s.buf.back.length ∧
      s'.clear = s.clear ∧
      (∀ j, j < idx → s'.buf.back[j]? = s.buf.back[j]?) ∧
      ∀ s2 : Scr, s2.buf = s'.buf → ∀ g, n < g → s2.drawLoop u env g (idx, n) = .ok s2 := by
  intro m
  induction m with
  | zero =>
    intro n f idx s s' hm hf hlen hi e
    obtain rfl : n = 0 := by omega
    obtain ⟨f, rfl⟩ : ∃ g, f = g + 1 := ⟨f - 1, by omega⟩
    rw [drawLoop_done] at e
    cases e
    refine ⟨rfl, rfl, rfl, fun _ _ => rfl, fun s2 _ g hg => ?_⟩
    obtain ⟨g, rfl⟩ : ∃ k, g = k + 1 := ⟨g - 1, by omega⟩
    rw [drawLoop_done]
  | succ m ih =>
    intro n f idx s s' hm hf hlen hi e
    obtain ⟨f, rfl⟩ : ∃ g, f = g + 1 := ⟨f - 1, by omega⟩
    cases n with
    | zero =>
      rw [drawLoop_done] at e
      cases e
      refine ⟨rfl, rfl, rfl, fun _ _ => rfl, fun s2 _ g hg => ?_⟩
      obtain ⟨g, rfl⟩ : ∃ k, g = k + 1 := ⟨g - 1, by omega⟩
      rw [drawLoop_done]
    | succ n =>
      have hlt : idx < s.buf.buffer.length := by omega
      have hb : s.buf.buffer[idx]? = some s.buf.buffer[idx] := List.getElem?_eq_getElem hlt
      have hlt' : idx < s.buf.back.length := by rw [hi.backLen, ← hi.len]; exact hlt
      have hk : s.buf.back[idx]? = some s.buf.back[idx] := List.getElem?_eq_getElem hlt'
      generalize s.buf.buffer[idx] = c at hb
      generalize s.buf.back[idx] = old at hk
      have hne : c.text ≠ [] := hi.text c (List.mem_of_getElem? hb)
      have hsk : skipOf u c n ≤ n := by unfold skipOf; split <;> omega
      by_cases hco : c = old
      · subst hco
        rw [drawLoop_same hb hne hk] at e
        obtain ⟨g1, g2, g3, g4, g5⟩ := ih (n - skipOf u c n) (f + 1) (idx + 1 + skipOf u c n) s s'
          (by omega) (by omega) (by omega) hi e
        refine ⟨g1, g2, g3, fun j hj => g4 j (by omega), fun s2 h2 g hg => ?_⟩
        obtain ⟨g, rfl⟩ : ∃ k, g = k + 1 := ⟨g - 1, by omega⟩
        have hb2 : s2.buf.buffer[idx]? = some c := by rw [h2, g1]; exact hb
        have hk2 : s2.buf.back[idx]? = some c := by rw [h2, g4 idx (by omega)]; exact hk
        rw [drawLoop_same hb2 hne hk2]
        exact g5 s2 h2 (g + 1) (by omega)
      · rw [drawLoop_draw hb hne hk hco (by have := hi.size.2.1; omega)] at e
        cases ed : (s.mark idx c).drawCell env (posOf s.buf.size idx) c with
        | err e1 s1 => rw [ed] at e; cases e
        | stop x => rw [ed] at e; cases e
        | ok s1 =>
          rw [ed, andThen_ok] at e
          obtain ⟨d1, d2⟩ := drawCell_buf ed
          have hi1 : s1.buf.Inv := by
            rw [d1]
            refine ⟨hi.size, hi.len, ?_, hi.text⟩
            show (s.buf.back.set idx c).length = _
            rw [List.length_set]; exact hi.backLen
          have hb1 : s1.buf.buffer = s.buf.buffer := by rw [d1]; rfl
          have hk1 : s1.buf.back = s.buf.back.set idx c := by rw [d1]; rfl
          obtain ⟨g1, g2, g3, g4, g5⟩ := ih (n - skipOf u c n) f (idx + 1 + skipOf u c n) s1 s'
            (by omega) (by omega) (by rw [hb1]; omega) hi1 e
          refine ⟨?_, ?_, g3.trans d2, fun j hj => ?_, fun s2 h2 g hg => ?_⟩
          · rw [g1, d1]; rfl
          · rw [g2, hk1, List.length_set]
          · rw [g4 j (by omega), hk1, List.getElem?_set, if_neg (by omega)]
          · obtain ⟨g, rfl⟩ : ∃ k, g = k + 1 := ⟨g - 1, by omega⟩
            have hb2 : s2.buf.buffer[idx]? = some c := by rw [h2, g1]; show s1.buf.buffer[idx]? = _; rw [hb1]; exact hb
            have hk2 : s2.buf.back[idx]? = some c := by
              rw [h2, g4 idx (by omega), hk1, List.getElem?_set, if_pos rfl, if_pos hlt']
            rw [drawLoop_same hb2 hne hk2]
            exact g5 s2 h2 (g + 1) (by omega)

/-- The writer shows no attributes. -/
def Bare (w : WS) : Prop := w.fg = none ∧ w.bg = none ∧ w.style = 0#8

theorem clear_bare {env : WEnv} {w w' : WS} (h : clearAttributes env w = .ok w') : Bare w' := by
  have := clear_post (F := False) (env := env) (s := w) (t := w.theme) ⟨rfl, fun h => h.elim⟩
  rw [h] at this
  have := theme_eq this.1
  exact ⟨this.1, this.2.1, this.2.2⟩

theorem clear_noop {env : WEnv} {w : WS} (h : Bare w) : clearAttributes env w = .ok w := by
  obtain ⟨h1, h2, h3⟩ := h
  unfold clearAttributes
  rw [h1, h2, h3]
  rfl

theorem expand_bare {env : WEnv} {c : Cap} {ps : List Nat} {f : List Nat → Bytes × Bool} {w w' : WS}
    (hb : Bare w) (h : expand env c ps f w = .ok w') : Bare w' := by
  unfold expand at h
  rcases hf : f ps with ⟨b, good⟩
  rw [hf] at h
  cases good with
  | false => cases h
  | true => cases h; exact hb

theorem move_bare {env : WEnv} {p : Cursor} {w w' : WS} (hb : Bare w)
    (h : moveCursor env p w = .ok w') : Bare w' := by
  unfold moveCursor at h
  split at h
  · split at h
    · exact expand_bare hb h
    · split at h
      · exact expand_bare hb h
      · cases h
  · exact expand_bare hb h
  · cases h

theorem flush_ok {w w' : WS} (h : flush w = .ok w') : w'.pending = [] ∧
    (Bare w → Bare w') := by
  unfold flush at h
  cases hd : writeData w.pending w.os 0 w.dev with
  | blocked => rw [hd] at h; cases h
  | done n os dev r =>
    rw [hd] at h
    dsimp only at h
    split at h
    · cases h
    · cases r with
      | some e => cases h
      | none =>
        cases h
        refine ⟨?_, fun h => h⟩
        have := writeData_ok w.pending w.os 0 w.dev n os dev hd
        simp [this]

theorem flush_noop {w : WS} (h : w.pending = []) : flush w = .ok w := by
  unfold flush
  rw [h]
  unfold writeData
  simp
  cases w
  simp_all

theorem onW_inv {f : WS → Outcome WS} {s s' : Scr} (h : s.onW f = .ok s') :
    f s.w = .ok s'.w ∧ s'.toSData = s.toSData := by
  rw [onW_def] at h
  cases e : f s.w with
  | ok w => rw [e] at h; cases h; exact ⟨rfl, rfl⟩
  | err e1 w => rw [e] at h; cases h
  | stop x => rw [e] at h; cases h

theorem onW_noop {f : WS → Outcome WS} {s : Scr} (h : f s.w = .ok s.w) : s.onW f = .ok s := by
  rw [onW_ok h]

theorem moveS_inv {env : WEnv} {p : Cursor} {s s' : Scr} (h : s.moveCursor env p = .ok s') :
    s'.buf = s.buf ∧ s'.clear = s.clear ∧ s'.real = p ∧ (Bare s.w → Bare s'.w) := by
  have hr := move_real h
  unfold Scr.moveCursor at h
  split at h
  · obtain ⟨s1, e1, e2⟩ := andThen_inv h
    obtain ⟨f1, f2⟩ := onW_inv e1
    have a := congrArg SData.buf f2
    have b := congrArg SData.clear f2
    cases e2
    exact ⟨a, b, rfl, fun hb => move_bare hb f1⟩
  · cases h
    exact ⟨rfl, rfl, hr, id⟩

/-- Refreshing again right after a successful refresh changes nothing, not even the answers the
operating system has in store. -/
theorem refresh_again {u : UEnv} {env : WEnv} {s s' : Scr} (hi : s.buf.Inv)
    (e : s.refresh u env = .ok s') : s'.refresh u env = .ok s' := by
  rw [refresh_eq] at e
  obtain ⟨s2, e2, e⟩ := andThen_inv e
  obtain ⟨s1, e1, e2⟩ := andThen_inv e2
  obtain ⟨s3, e3, e⟩ := andThen_inv e
  obtain ⟨s5, e5, e⟩ := andThen_inv e
  obtain ⟨s4, e4, e5⟩ := andThen_inv e5
  -- the beginning
  have h1 : s1.buf = s.buf ∧ s1.clear = false := by
    unfold Scr.clearIfNeeded at e1
    split at e1
    · obtain ⟨s0, f1, f2⟩ := andThen_inv e1
      have a := congrArg SData.buf (onW_inv f1).2
      cases f2
      exact ⟨a, rfl⟩
    · rename_i hc
      cases e1
      exact ⟨rfl, by simpa using hc⟩
  have h2 : s2.buf = s.buf ∧ s2.clear = false := by
    have := (onW_inv e2).2
    exact ⟨(congrArg SData.buf this).trans h1.1, (congrArg SData.clear this).trans h1.2⟩
  have hi2 : s2.buf.Inv := by rw [h2.1]; exact hi
  have harea : s2.buf.buffer.length = 0 + s2.buf.size.area := by
    rw [hi2.len]; unfold Size.area; omega
  obtain ⟨k1, k2, k3, -, k5⟩ := drawLoop_again _ _ _ _ _ _ (Nat.le_refl _) (by omega) harea hi2 e3
  -- the end
  have h4 := onW_inv e4
  have hb4 : Bare s4.w := clear_bare h4.1
  have b4 : s4.buf = s3.buf := congrArg SData.buf h4.2
  have c4 : s4.clear = s3.clear := congrArg SData.clear h4.2
  have z4 : GoodSize s4.buf.size := by rw [b4, k1]; exact hi2.size
  rw [placeCursor_eq env s4 z4] at e5
  obtain ⟨b5, c5, r5, w5⟩ := moveS_inv e5
  have h6 := onW_inv e
  have b6 : s'.buf = s5.buf := congrArg SData.buf h6.2
  have c6 : s'.clear = s5.clear := congrArg SData.clear h6.2
  have r6 : s'.real = s5.real := congrArg SData.real h6.2
  obtain ⟨p6, w6⟩ := flush_ok h6.1
  have hbare : Bare s'.w := w6 (w5 hb4)
  have hbuf : s'.buf = s3.buf := b6.trans (b5.trans b4)
  have hclear : s'.clear = false := c6.trans (c5.trans (c4.trans (k3.trans h2.2)))
  have hreal : s'.real = target s'.buf := by rw [r6, r5, b6, b5]
  have hsize : s'.buf.size = s2.buf.size := by rw [hbuf, k1]
  -- again
  have q1 : s'.clearIfNeeded env = .ok s' := by
    unfold Scr.clearIfNeeded
    rw [hclear]; rfl
  have q2 : s'.onW (clearAttributes env) = .ok s' := onW_noop (clear_noop hbare)
  have q3 : s'.drawLoop u env (s'.buf.size.area + 1) (0, s'.buf.size.area) = .ok s' := by
    rw [hsize]
    exact k5 s' hbuf _ (by omega)
  have q4 : s'.placeCursor env = .ok s' := by
    rw [placeCursor_eq env s' (by rw [hsize]; exact hi2.size)]
    unfold Scr.moveCursor
    rw [if_neg (by rw [hreal]; simp)]
  have q5 : s'.onW flush = .ok s' := onW_noop (flush_noop p6)
  rw [refresh_eq, q1, andThen_ok, q2, andThen_ok, q3, andThen_ok, q2, andThen_ok, q4, andThen_ok, q5]

/-! ## The texts a refresh sends -/

theorem sent_append (a b : List Out) : sentTexts (a ++ b) = sentTexts a ++ sentTexts b := by
  unfold sentTexts; rw [List.filterMap_append]

theorem sent_cap (a : List Out) (c : Cap) (ps : List Nat) :
    sentTexts (a ++ [.cap c ps]) = sentTexts a := by rw [sent_append]; simp [sentTexts]

theorem sent_text (a : List Out) (b : Bytes) :
    sentTexts (a ++ [.text b]) = sentTexts a ++ [b] := by rw [sent_append]; simp [sentTexts]

theorem expand_sent {env : WEnv} {c : Cap} {ps : List Nat} {f : List Nat → Bytes × Bool} {w : WS}
    {T : List Bytes} (h : sentTexts w.log = T) :
    Always (expand env c ps f w) fun w' => sentTexts w'.log = T := by
  unfold expand
  rcases hf : f ps with ⟨b, good⟩
  cases good with
  | false => exact Always.err (by simpa [sent_append, sentTexts] using h)
  | true => exact Always.ok (by rw [← h]; exact sent_cap _ _ _)

theorem invA_sent (env : WEnv) (T : List Bytes) : InvA env fun w => sentTexts w.log = T where
  attrs := fun _ _ _ _ h => h
  expand := fun _ _ _ _ _ _ h => expand_sent h

theorem always_ok {o : Outcome WS} {P : WS → Prop} (h : Always o P) {s : WS} (e : o = .ok s) :
    P s := by subst e; exact h s rfl

theorem moveW_sent {env : WEnv} {p : Cursor} {w w' : WS} (h : moveCursor env p w = .ok w') :
    sentTexts w'.log = sentTexts w.log := by
  refine always_ok (P := fun w' => sentTexts w'.log = sentTexts w.log) ?_ h
  unfold moveCursor
  split
  · split
    · exact expand_sent rfl
    · split
      · exact expand_sent rfl
      · exact Always.err rfl
  · exact expand_sent rfl
  · exact Always.err rfl

theorem moveS_sent {env : WEnv} {p : Cursor} {s s' : Scr} (h : s.moveCursor env p = .ok s') :
    sentTexts s'.w.log = sentTexts s.w.log := by
  unfold Scr.moveCursor at h
  split at h
  · obtain ⟨s1, e1, e2⟩ := andThen_inv h
    have a := moveW_sent (onW_inv e1).1
    cases e2
    exact a
  · cases h; rfl

theorem drawCell_sent {env : WEnv} {p : Cursor} {c : Cell} {s s' : Scr}
    (h : s.drawCell env p c = .ok s') :
    sentTexts s'.w.log = sentTexts s.w.log ++ [encode c.text] := by
  unfold Scr.drawCell at h
  obtain ⟨s3, e3, e4⟩ := andThen_inv h
  obtain ⟨s2, e2, e3⟩ := andThen_inv e3
  obtain ⟨s1, e1, e2⟩ := andThen_inv e2
  have a1 := moveS_sent e1
  have a2 : sentTexts s2.w.log = sentTexts s1.w.log :=
    always_ok (inva_setAttrs (invA_sent env _) c.fg c.bg c.style s1.w rfl) (onW_inv e2).1
  have a3 : sentTexts s3.w.log = sentTexts s2.w.log ++ [encode c.text] := by
    rw [((writeBytes_same (b := encode c.text) (w := s2.w)).1 _ (onW_inv e3).1).1, sent_text]
  dsimp only at e4
  split at e4
  · cases e4
  · cases e4
    show sentTexts s3.w.log = _
    rw [a3, a2, a1]

def encAt (b : Buf) (j : Nat) : Bytes := ((b.buffer[j]?.map fun c => encode c.text)).getD []

/-- What the loop has done on a range: `js` are the cells sent. -/
structure Sent (u : UEnv) (b b' : Buf) (idx n : Nat) (js : List Nat) : Prop where
  sorted : js.Pairwise (· < ·)
  mem : ∀ j ∈ js, idx ≤ j ∧ j < idx + n ∧ b.buffer[j]? ≠ b.back[j]?
  all : ∀ j, idx ≤ j → j < idx + n → j = idx ∨ Live u b.buffer j → b.buffer[j]? ≠ b.back[j]? → j ∈ js
  synced : ∀ j, idx ≤ j → j < idx + n → b'.back[j]? = b.buffer[j]? ∨ (idx < j ∧ ¬ Live u b.buffer j)

theorem drawLoop_sent {u : UEnv} {env : WEnv} :
    ∀ (m n f idx : Nat) (s s' : Scr), n ≤ m → n < f → s.buf.buffer.length = idx + n →
      s.buf.Inv → s.drawLoop u env f (idx, n) = .ok s' →
      ∃ js, Sent u s.buf s'.buf idx n js ∧
        sentTexts s'.w.log = sentTexts s.w.log ++ js.map (encAt s.buf) := by
  intro m
  induction m with
  | zero =>
    intro n f idx s s' hm hf hlen hi e
    obtain rfl : n = 0 := by omega
    obtain ⟨f, rfl⟩ : ∃ g, f = g + 1 := ⟨f - 1, by omega⟩
    rw [drawLoop_done] at e
    cases e
    exact ⟨[], ⟨List.Pairwise.nil, nofun, fun j _ _ => by omega, fun j _ _ => by omega⟩, by simp⟩
  | succ m ih =>
    intro n f idx s s' hm hf hlen hi e
    obtain ⟨f, rfl⟩ : ∃ g, f = g + 1 := ⟨f - 1, by omega⟩
    cases n with
    | zero =>
      rw [drawLoop_done] at e
      cases e
      exact ⟨[], ⟨List.Pairwise.nil, nofun, fun j _ _ => by omega, fun j _ _ => by omega⟩, by simp⟩
    | succ n =>
      have hlt : idx < s.buf.buffer.length := by omega
      have hb : s.buf.buffer[idx]? = some s.buf.buffer[idx] := List.getElem?_eq_getElem hlt
      have hlt' : idx < s.buf.back.length := by rw [hi.backLen, ← hi.len]; exact hlt
      have hk : s.buf.back[idx]? = some s.buf.back[idx] := List.getElem?_eq_getElem hlt'
      generalize s.buf.buffer[idx] = c at hb
      generalize s.buf.back[idx] = old at hk
      have hne : c.text ≠ [] := hi.text c (List.mem_of_getElem? hb)
      have hsk : skipOf u c n ≤ n := by unfold skipOf; split <;> omega
      -- between this cell and the next one looked at there are only covered cells
      have hgap : ∀ j, idx < j → j < idx + 1 + skipOf u c n → ¬ Live u s.buf.buffer j := by
        intro j h1 h2 hl
        unfold skipOf at h2
        split at h2
        · rename_i hw
          obtain rfl : j = idx + 1 := by omega
          rcases hl with hl | hl
          · omega
          · have := hl c (by simpa using hb)
            rw [hw] at this; cases this
        · omega
      by_cases hco : c = old
      · subst hco
        rw [drawLoop_same hb hne hk] at e
        obtain ⟨js, h1, h2⟩ := ih (n - skipOf u c n) (f + 1) (idx + 1 + skipOf u c n) s s'
          (by omega) (by omega) (by omega) hi e
        obtain ⟨-, -, -, k4, -⟩ := drawLoop_again _ _ _ _ _ _ (Nat.le_refl _) (by omega)
          (by omega) hi e
        refine ⟨js, ⟨h1.sorted, fun j hj => ?_, fun j g1 g2 g3 g4 => ?_, fun j g1 g2 => ?_⟩, h2⟩
        · have := h1.mem j hj
          exact ⟨by omega, by omega, this.2.2⟩
        · by_cases hj : j = idx
          · subst hj; rw [hb, hk] at g4; exact absurd rfl g4
          · have hl : Live u s.buf.buffer j := g3.resolve_left hj
            by_cases hj2 : j < idx + 1 + skipOf u c n
            · exact absurd hl (hgap j (by omega) hj2)
            · exact h1.all j (by omega) (by omega) (Or.inr hl) g4
        · by_cases hj : j = idx
          · subst hj
            left; rw [k4 j (by omega), hb, hk]
          · by_cases hj2 : j < idx + 1 + skipOf u c n
            · exact Or.inr ⟨by omega, hgap j (by omega) hj2⟩
            · rcases h1.synced j (by omega) (by omega) with h | h
              · exact Or.inl h
              · exact Or.inr ⟨by omega, h.2⟩
      · rw [drawLoop_draw hb hne hk hco (by have := hi.size.2.1; omega)] at e
        obtain ⟨s1, ed, e⟩ := andThen_inv e
        obtain ⟨d1, d2⟩ := drawCell_buf ed
        have hi1 : s1.buf.Inv := by
          rw [d1]
          refine ⟨hi.size, hi.len, ?_, hi.text⟩
          show (s.buf.back.set idx c).length = _
          rw [List.length_set]; exact hi.backLen
        have hb1 : s1.buf.buffer = s.buf.buffer := by rw [d1]; rfl
        have hk1 : s1.buf.back = s.buf.back.set idx c := by rw [d1]; rfl
        obtain ⟨js, h1, h2⟩ := ih (n - skipOf u c n) f (idx + 1 + skipOf u c n) s1 s'
          (by omega) (by omega) (by rw [hb1]; omega) hi1 e
        obtain ⟨-, -, -, k4, -⟩ := drawLoop_again _ _ _ _ _ _ (Nat.le_refl _) (by omega)
          (by rw [hb1]; omega) hi1 e
        have hbk : ∀ j, idx < j → s1.buf.back[j]? = s.buf.back[j]? := fun j hj => by
          rw [hk1, List.getElem?_set, if_neg (by omega)]
        refine ⟨idx :: js, ⟨List.pairwise_cons.mpr ⟨fun j hj => ?_, h1.sorted⟩, fun j hj => ?_,
          fun j g1 g2 g3 g4 => ?_, fun j g1 g2 => ?_⟩, ?_⟩
        · have := h1.mem j hj; omega
        · rcases List.mem_cons.mp hj with rfl | hj
          · exact ⟨Nat.le_refl _, by omega, by rw [hb, hk]; simpa using hco⟩
          · have := h1.mem j hj
            exact ⟨by omega, by omega, by rw [← hb1, ← hbk j (by omega)]; exact this.2.2⟩
        · by_cases hj : j = idx
          · subst hj; exact List.mem_cons_self ..
          · have hl : Live u s.buf.buffer j := g3.resolve_left hj
            by_cases hj2 : j < idx + 1 + skipOf u c n
            · exact absurd hl (hgap j (by omega) hj2)
            · exact List.mem_cons_of_mem _ (h1.all j (by omega) (by omega)
                (Or.inr (by rw [hb1]; exact hl)) (by rw [hb1, hbk j (by omega)]; exact g4))
        · by_cases hj : j = idx
          · subst hj
            left
            rw [k4 j (by omega), hk1, List.getElem?_set, if_pos rfl, if_pos hlt', hb]
          · by_cases hj2 : j < idx + 1 + skipOf u c n
            · exact Or.inr ⟨by omega, hgap j (by omega) hj2⟩
            · have := h1.synced j (by omega) (by omega)
              rw [hb1] at this
              rcases this with h | h
              · exact Or.inl h
              · exact Or.inr ⟨by omega, h.2⟩
        · have he : encAt s1.buf = encAt s.buf := by funext j; unfold encAt; rw [hb1]
          rw [h2, drawCell_sent ed, he, List.map_cons, List.append_assoc]
          have : encAt s.buf idx = encode c.text := by unfold encAt; rw [hb]; rfl
          rw [this]; rfl

/-! ## The log only grows -/

theorem inv_log (env : WEnv) (L : List Out) : Inv4 env fun w => L <+: w.log where
  attrs := fun _ _ _ _ h => h
  expand := by
    intro c ps f w _ h
    unfold expand
    rcases hf : f ps with ⟨b, good⟩
    cases good with
    | false => exact Always.err (h.trans (List.prefix_append _ _))
    | true => exact Always.ok (h.trans (List.prefix_append _ _))
  flush := by
    intro w h w' e
    have := flush_same (w := w)
    cases ho : flush w with
    | ok w1 => rw [ho] at e; cases e; rw [(this.1 _ ho).1]; exact h
    | err e1 w1 => rw [ho] at e; cases e; rw [(this.2 _ _ ho).1]; exact h
    | stop x => rw [ho] at e; cases e
  write := by
    intro b w h w' e
    have := writeBytes_same (b := b) (w := w)
    cases ho : writeBytes b w with
    | ok w1 => rw [ho] at e; cases e; rw [(this.1 _ ho).1]; exact h.trans (List.prefix_append _ _)
    | err e1 w1 => rw [ho] at e; cases e; rw [(this.2 _ _ ho).1]; exact h
    | stop x => rw [ho] at e; cases e

theorem moveS_log {env : WEnv} {P : WS → Prop} (hP : Inv4 env P) {p : Cursor} {s s' : Scr}
    (hp : P s.w) (h : s.moveCursor env p = .ok s') : P s'.w := by
  unfold Scr.moveCursor at h
  split at h
  · obtain ⟨s1, e1, e2⟩ := andThen_inv h
    have a := always_ok (inv_moveCursor hP p s.w hp) (onW_inv e1).1
    cases e2
    exact a
  · cases h; exact hp

theorem drawCell_log {env : WEnv} {P : WS → Prop} (hP : Inv4 env P) {p : Cursor} {c : Cell}
    {s s' : Scr} (hp : P s.w) (h : s.drawCell env p c = .ok s') : P s'.w := by
  unfold Scr.drawCell at h
  obtain ⟨s3, e3, e4⟩ := andThen_inv h
  obtain ⟨s2, e2, e3⟩ := andThen_inv e3
  obtain ⟨s1, e1, e2⟩ := andThen_inv e2
  have a1 := moveS_log hP hp e1
  have a2 := always_ok (inv_setAttrs hP c.fg c.bg c.style s1.w a1) (onW_inv e2).1
  have a3 := always_ok (hP.write (encode c.text) s2.w a2) (onW_inv e3).1
  dsimp only at e4
  split at e4
  · cases e4
  · cases e4; exact a3

theorem drawLoop_log {u : UEnv} {env : WEnv} {P : WS → Prop} (hP : Inv4 env P) :
    ∀ (f : Nat) (r : Nat × Nat) (s s' : Scr), P s.w → s.drawLoop u env f r = .ok s' → P s'.w
  | 0, _, _, _, _, e => by cases e
  | f + 1, (idx, n), s, s', hp, e => by
    simp only [Scr.drawLoop] at e
    split at e
    · cases e
    · cases e; exact hp
    · obtain ⟨s1, e1, e2⟩ := andThen_inv e
      have h1 : P s1.w := by
        refine drawCell_log hP ?_ e1
        exact hp
      exact drawLoop_log hP f _ s1 s' h1 e2

/-- The cells a successful refresh sends, and what it leaves in the record. -/
theorem refresh_sent {u : UEnv} {env : WEnv} {s s' : Scr} (hi : s.buf.Inv)
    (e : s.refresh u env = .ok s') :
    ∃ js, Sent u s.buf s'.buf 0 s.buf.size.area js ∧
      sentTexts s'.w.log = sentTexts s.w.log ++ js.map (encAt s.buf) ∧
      (s.clear = true → ∃ new, s'.w.log = s.w.log ++ .cap .clearScreen [] :: new) := by
  rw [refresh_eq] at e
  obtain ⟨s2, e2, e⟩ := andThen_inv e
  obtain ⟨s1, e1, e2⟩ := andThen_inv e2
  obtain ⟨s3, e3, e⟩ := andThen_inv e
  obtain ⟨s5, e5, e⟩ := andThen_inv e
  obtain ⟨s4, e4, e5⟩ := andThen_inv e5
  have h1 : s1.buf = s.buf ∧ sentTexts s1.w.log = sentTexts s.w.log ∧
      (s.clear = true → s1.w.log = s.w.log ++ [.cap .clearScreen []]) := by
    unfold Scr.clearIfNeeded at e1
    split at e1
    · obtain ⟨s0, f1, f2⟩ := andThen_inv e1
      have a := congrArg SData.buf (onW_inv f1).2
      have b : s0.w.log = s.w.log ++ [.cap .clearScreen []] := by
        have := (onW_inv f1).1
        unfold expandReq at this
        split at this
        · exact (expand_ok this).2
        · cases this
      cases f2
      exact ⟨a, by show sentTexts s0.w.log = _; rw [b, sent_cap], fun _ => b⟩
    · rename_i hc
      cases e1
      exact ⟨rfl, rfl, fun h => absurd h hc⟩
  have h2 : s2.buf = s.buf := (congrArg SData.buf (onW_inv e2).2).trans h1.1
  have t2 : sentTexts s2.w.log = sentTexts s1.w.log :=
    always_ok (inva_clear (invA_sent env _) s1.w rfl) (onW_inv e2).1
  obtain ⟨js, t3, t3'⟩ := drawLoop_sent _ _ _ _ _ _ (Nat.le_refl _) (by omega)
    (by rw [h2, hi.len]; unfold Size.area; omega) (by rw [h2]; exact hi) e3
  have t4 : sentTexts s4.w.log = sentTexts s3.w.log :=
    always_ok (inva_clear (invA_sent env _) s3.w rfl) (onW_inv e4).1
  have z3 : GoodSize s3.buf.size := by
    have := (drawLoop_again _ _ _ _ _ _ (Nat.le_refl _) (by omega)
      (by rw [h2, hi.len]; unfold Size.area; omega) (by rw [h2]; exact hi) e3).1
    rw [this, h2]; exact hi.size
  have b4 : s4.buf = s3.buf := congrArg SData.buf (onW_inv e4).2
  rw [placeCursor_eq env s4 (by rw [b4]; exact z3)] at e5
  have t5 : sentTexts s5.w.log = sentTexts s4.w.log := moveS_sent e5
  have t6 : sentTexts s'.w.log = sentTexts s5.w.log := by
    rw [((flush_same (w := s5.w)).1 _ (onW_inv e).1).1]
  have hb' : s'.buf = s3.buf :=
    ((congrArg SData.buf (onW_inv e).2).trans (moveS_inv e5).1).trans b4
  refine ⟨js, by rw [hb', ← h2]; exact t3, by rw [t6, t5, t4, t3', t2, h1.2.1, h2], fun hc => ?_⟩
  have hL := inv_log env (s.w.log ++ [.cap .clearScreen []])
  have g1 : s.w.log ++ [.cap .clearScreen []] <+: s1.w.log := by rw [h1.2.2 hc]; exact List.prefix_rfl
  have g2 := always_ok (inv_clear hL s1.w g1) (onW_inv e2).1
  have g3 := drawLoop_log hL _ _ _ _ g2 e3
  have g4 := always_ok (inv_clear hL s3.w g3) (onW_inv e4).1
  have g5 := moveS_log hL g4 e5
  have g6 := always_ok (hL.flush s5.w g5) (onW_inv e).1
  obtain ⟨new, hnew⟩ := g6
  exact ⟨new, by rw [← hnew]; simp⟩

end Mortal
