import Verif.Spec.WinOnly
import Verif.Lemmas.WinAgain
import Verif.Lemmas.WinText
import Verif.Lemmas.SessionRun

/-! # What a refresh of a Windows screen writes -/

namespace Mortal
open Spec

/-- Between the two states, these units were written to the screen buffer of the first, and nothing
to another one. -/
def Adds (us : List (BitVec 16)) (s s' : WinSt) : Prop :=
  s'.outH = s.outH ∧ ∃ D, s'.log = s.log ++ D ∧ WritesTo s.outH D ∧
    (HonestWrites D → accepted s.outH D = us)

theorem Adds.refl (s : WinSt) : Adds [] s s :=
  ⟨rfl, [], by simp, nofun, fun _ => rfl⟩

theorem Adds.trans {us vs : List (BitVec 16)} {a b c : WinSt} (h : Adds us a b) (h' : Adds vs b c) :
    Adds (us ++ vs) a c := by
  obtain ⟨h1, D, h2, h3, h4⟩ := h
  obtain ⟨g1, E, g2, g3, g4⟩ := h'
  refine ⟨g1.trans h1, D ++ E, by rw [g2, h2, List.append_assoc], fun p q r hm => ?_, fun hh => ?_⟩
  · rcases List.mem_append.mp hm with hm | hm
    · exact h3 p q r hm
    · rw [← h1]; exact g3 p q r hm
  · rw [accepted_append, h4 fun p q r hm => hh p q r (List.mem_append_left _ hm)]
    congr 1
    rw [← h1]
    exact g4 fun p q r hm => hh p q r (List.mem_append_right _ hm)

theorem Adds.silent {a b c : WinSt} (h : Adds [] a b) (h' : Adds [] b c) : Adds [] a c := h.trans h'

/-- Code that writes no text. -/
def NoText {α : Type} (m : WM α) : Prop := ∀ s a s', m s = .ok a s' → Adds [] s s'

section
variable {α β : Type}

theorem NoText.bind {m : WM α} {f : α → WM β} (h : NoText m) (hf : ∀ a, NoText (f a)) :
    NoText (m >>= f) := by
  intro s b s' e
  obtain ⟨a, s1, e1, e2⟩ := sm_bind_ok e
  exact (h s a s1 e1).silent (hf a s1 b s' e2)

theorem NoText.pure (a : α) : NoText (pure a : WM α) := by
  intro s b s' e
  cases e; exact .refl s

theorem NoText.get : NoText (SM.get : WM WinSt) := by
  intro s b s' e
  cases e; exact .refl s

theorem NoText.ofPanics (x : Panics α) : NoText (SM.ofPanics x : WM α) := by
  intro s b s' e
  cases x with
  | none => cases e
  | some a => cases e; exact .refl s

theorem NoText.halt (w : Stop) : NoText (SM.halt w : WM α) := by
  intro s b s' e; cases e

theorem NoText.throw (w : IoErr) : NoText (SM.throw w : WM α) := by
  intro s b s' e; cases e

theorem NoText.when {b : Prop} [Decidable b] {m : WM Unit} (h : NoText m) : NoText (SM.when b m) := by
  unfold SM.when
  split
  · exact h
  · exact .pure ()

theorem NoText.conCall {c : ConCall} (hc : ∀ h us, c ≠ .write h us) : NoText (conCall c) := by
  intro s a s' e
  obtain ⟨evs, h1, h2, h3, -⟩ := conCall_ok e
  refine ⟨h3.outH, evs ++ [.call c a], by rw [h2, List.append_assoc], fun p q r hm => ?_, fun _ => ?_⟩
  · rcases List.mem_append.mp hm with hm | hm
    · exact (h1 _ hm).elim
    · rw [List.mem_singleton] at hm
      cases hm; exact absurd rfl (hc p q)
  · rw [accepted_append, accepted_haps _ h1]
    unfold accepted
    rw [List.nil_append, List.flatMap_cons, List.flatMap_nil, List.append_nil]
    split
    · rename_i h' us n heq
      cases heq
      exact absurd rfl (hc h' us)
    · rfl

theorem NoText.boolCall {c : ConCall} (hc : ∀ h us, c ≠ .write h us) : NoText (boolCall c) := by
  unfold Mortal.boolCall
  refine .bind (.conCall hc) fun a => ?_
  split
  · exact .pure ()
  · exact .throw _
  · exact .halt _

theorem NoText.moveAbs (p : Coord) : NoText (moveAbs p) := by
  unfold Mortal.moveAbs
  exact .bind .get fun s => .boolCall nofun

theorem NoText.info (h : Nat) : NoText (consoleInfo h) := by
  unfold consoleInfo
  refine .bind (.conCall nofun) fun a => ?_
  split
  · exact .pure _
  · exact .throw _
  · exact .halt _

theorem NoText.moveWindow (h : Nat) (r : Rect) (d : Int) : NoText (moveWindow h r d) := by
  unfold Mortal.moveWindow
  split
  · exact .bind (.ofPanics _) fun _ => .bind (.ofPanics _) fun _ =>
      .bind (.boolCall nofun) fun _ => .pure _
  · exact .pure _

theorem NoText.clearScreen (t : WTerm) : NoText (winClearScreen t) := by
  unfold winClearScreen
  refine .bind .get fun _ => .bind (.info _) fun info => .bind (.ofPanics _) fun _ =>
    .bind (.ofPanics _) fun _ => ?_
  split
  · refine .bind (.ofPanics _) fun _ => .bind ?_ fun _ => .moveAbs _
    unfold clearArea
    exact .bind .get fun _ => .bind (.boolCall nofun) fun _ => .boolCall nofun
  · exact .bind (.ofPanics _) fun _ => .bind (.ofPanics _) fun _ => .bind (.ofPanics _) fun _ =>
      .bind (.ofPanics _) fun _ => .bind (.moveWindow _ _ _) fun _ => .bind (.ofPanics _) fun _ =>
      .bind (.when (.bind (.ofPanics _) fun _ => .boolCall nofun)) fun _ => .moveAbs _

theorem NoText.setAttributes (t : WTerm) (th : Theme) : NoText (winSetAttributes t th) := by
  unfold winSetAttributes
  refine .bind .get fun s => ?_
  split
  · refine .bind ?_ fun _ => ?_
    · intro s b s' e
      cases e
      exact ⟨rfl, [], by simp, nofun, fun _ => rfl⟩
    · unfold updateAttrs
      exact .bind .get fun _ => .boolCall nofun
  · exact .pure _

end

theorem writeStr_adds {text : List Char} {s s' : WinSt} {a : Unit}
    (h : winWriteStr text s = .ok a s') : Adds (text.flatMap encodeUtf16) s s' := by
  obtain ⟨D, g1, g2, g3, g4⟩ := (writeLoop_log s.outH s.os.length (text.flatMap encodeUtf16) s).1 s' h
  refine ⟨g3.outH, D, g1, fun p q r hm => ?_, g4⟩
  obtain ⟨us, n, e1, -⟩ := g2 _ _ hm
  cases e1; rfl

theorem onT_adds {α : Type} {m : WM α} (hm : NoText m) {x x' : WScr} {a : α}
    (h : onT m x = .ok a x') : Adds [] x.w x'.w := hm _ _ _ (onT_ok h).1

theorem wsMove_adds {p : Cursor} {x x' : WScr} {a : Unit} (h : wsMoveCursor p x = .ok a x') :
    Adds [] x.w x'.w := by
  unfold wsMoveCursor at h
  rw [sm_bind, sm_get] at h
  dsimp only at h
  by_cases hp : x.real = p
  · rw [if_neg (not_not_intro hp)] at h
    cases h; exact .refl _
  · rw [if_pos hp] at h
    obtain ⟨_, x1, h1, h2⟩ := sm_bind_ok h
    have := onT_adds (.moveAbs (cursorToCoord p)) h1
    cases h2
    exact this

theorem wsDrawCell_adds {t : WTerm} {src : Theme} {p : Cursor} {c : Cell} {x x' : WScr} {a : Unit}
    (h : wsDrawCell t src p c x = .ok a x') : Adds (c.text.flatMap encodeUtf16) x.w x'.w := by
  unfold wsDrawCell at h
  obtain ⟨_, x1, h1, h⟩ := sm_bind_ok h
  obtain ⟨_, x2, h2, h⟩ := sm_bind_ok h
  obtain ⟨_, x3, h3, h⟩ := sm_bind_ok h
  have a1 := wsMove_adds h1
  have a2 : Adds [] x1.w x2.w := by
    unfold applyAttrs at h2
    split at h2
    · exact onT_adds (.setAttributes t _) h2
    · cases h2; exact .refl _
  have a3 := writeStr_adds (onT_ok h3).1
  rw [sm_bind, sm_get] at h
  dsimp only at h
  obtain ⟨c', x4, h4, h5⟩ := sm_bind_ok h
  have : x4 = x3 := by
    cases hu : uadd x3.real.column 1 with
    | none => rw [hu] at h4; cases h4
    | some v => rw [hu] at h4; cases h4; rfl
  subst this
  cases h5
  exact (a1.silent a2).trans a3

def unitsAt (b : Buf) (j : Nat) : List (BitVec 16) :=
  ((b.buffer[j]?.map fun c => c.text.flatMap encodeUtf16)).getD []

theorem wsDrawLoop_sent {u : UEnv} {t : WTerm} :
    ∀ (m n f idx : Nat) (src : Theme) (x x' : WScr), n ≤ m → n < f →
      x.buf.buffer.length = idx + n → x.buf.Inv → wsDrawLoop u t f (idx, n) src x = .ok () x' →
      ∃ js, Sent u x.buf x'.buf idx n js ∧ Adds (js.flatMap (unitsAt x.buf)) x.w x'.w := by
  have hdone : ∀ (g idx : Nat) (src : Theme) (x : WScr), 0 < g →
      wsDrawLoop u t g (idx, 0) src x = .ok () x := by
    intro g idx src x hg
    obtain ⟨g, rfl⟩ : ∃ k, g = k + 1 := ⟨g - 1, by omega⟩
    rw [wsDrawLoop_eq]
    rfl
  have hsame : ∀ (g idx n : Nat) (src : Theme) (x : WScr) (c : Cell),
      x.buf.buffer[idx]? = some c → c.text ≠ [] → x.buf.back[idx]? = some c →
      wsDrawLoop u t (g + 1) (idx, n + 1) src x =
        wsDrawLoop u t (g + 1) (idx + 1 + skipOf u c n, n - skipOf u c n) src x := by
    intro g idx n src x c hb ht hk
    rw [wsDrawLoop_eq, nextCell_same hb ht hk, ← wsDrawLoop_eq]
  intro m
  induction m with
  | zero =>
    intro n f idx src x x' hm hf hlen hi e
    obtain rfl : n = 0 := by omega
    rw [hdone _ _ _ _ hf] at e
    cases e
    exact ⟨[], ⟨List.Pairwise.nil, nofun, fun j _ _ => by omega, fun j _ _ => by omega⟩, .refl _⟩
  | succ m ih =>
    intro n f idx src x x' hm hf hlen hi e
    obtain ⟨f, rfl⟩ : ∃ g, f = g + 1 := ⟨f - 1, by omega⟩
    cases n with
    | zero =>
      rw [hdone _ _ _ _ hf] at e
      cases e
      exact ⟨[], ⟨List.Pairwise.nil, nofun, fun j _ _ => by omega, fun j _ _ => by omega⟩, .refl _⟩
    | succ n =>
      have hlt : idx < x.buf.buffer.length := by omega
      have hb : x.buf.buffer[idx]? = some x.buf.buffer[idx] := List.getElem?_eq_getElem hlt
      have hlt' : idx < x.buf.back.length := by rw [hi.backLen, ← hi.len]; exact hlt
      have hk : x.buf.back[idx]? = some x.buf.back[idx] := List.getElem?_eq_getElem hlt'
      generalize x.buf.buffer[idx] = c at hb
      generalize x.buf.back[idx] = old at hk
      have hne : c.text ≠ [] := hi.text c (List.mem_of_getElem? hb)
      have hsk : skipOf u c n ≤ n := by unfold skipOf; split <;> omega
      have hgap : ∀ j, idx < j → j < idx + 1 + skipOf u c n → ¬ Live u x.buf.buffer j := by
        intro j h1 h2 hl
        unfold skipOf at h2
        split at h2
        · rename_i hw
          obtain rfl : j = idx + 1 := by omega
          rcases hl with hl | hl
          · omega
          · have := hl c (by simpa using hb)
            rw [hw] at this; cases this
        · omega
      by_cases hco : c = old
      · subst hco
        rw [hsame _ _ _ _ _ _ hb hne hk] at e
        obtain ⟨js, h1, h2⟩ := ih (n - skipOf u c n) (f + 1) (idx + 1 + skipOf u c n) _ x x'
          (by omega) (by omega) (by omega) hi e
        obtain ⟨-, -, -, k4, -⟩ := wsDrawLoop_again _ _ _ _ _ _ _ (Nat.le_refl _) (by omega)
          (by omega) hi e
        refine ⟨js, ⟨h1.sorted, fun j hj => ?_, fun j g1 g2 g3 g4 => ?_, fun j g1 g2 => ?_⟩, h2⟩
        · have := h1.mem j hj
          exact ⟨by omega, by omega, this.2.2⟩
        · by_cases hj : j = idx
          · subst hj; rw [hb, hk] at g4; exact absurd rfl g4
          · have hl : Live u x.buf.buffer j := g3.resolve_left hj
            by_cases hj2 : j < idx + 1 + skipOf u c n
            · exact absurd hl (hgap j (by omega) hj2)
            · exact h1.all j (by omega) (by omega) (Or.inr hl) g4
        · by_cases hj : j = idx
          · subst hj
            left; rw [k4 j (by omega), hb, hk]
          · by_cases hj2 : j < idx + 1 + skipOf u c n
            · exact Or.inr ⟨by omega, hgap j (by omega) hj2⟩
            · rcases h1.synced j (by omega) (by omega) with h | h
              · exact Or.inl h
              · exact Or.inr ⟨by omega, h.2⟩
      · rw [wsDrawLoop_eq, nextCell_draw hb hne hk hco (by have := hi.size.2.1; omega)] at e
        dsimp only at e
        cases ed : wsDrawCell t src (posOf x.buf.size idx) c
            { x with buf := { x.buf with back := x.buf.back.set idx c } } with
        | err e1 s1 => rw [ed] at e; cases e
        | stop x => rw [ed] at e; cases e
        | ok _ x1 =>
          rw [ed] at e
          dsimp only at e
          obtain ⟨d1, d2⟩ := wsDrawCell_ok ed
          have ad := wsDrawCell_adds ed
          dsimp only at d1 d2 ad
          have hi1 : x1.buf.Inv := by
            rw [d1]
            refine ⟨hi.size, hi.len, ?_, hi.text⟩
            show (x.buf.back.set idx c).length = _
            rw [List.length_set]; exact hi.backLen
          have hb1 : x1.buf.buffer = x.buf.buffer := by rw [d1]
          have hk1 : x1.buf.back = x.buf.back.set idx c := by rw [d1]
          obtain ⟨js, h1, h2⟩ := ih (n - skipOf u c n) f (idx + 1 + skipOf u c n) _ x1 x'
            (by omega) (by omega) (by rw [hb1]; omega) hi1 e
          obtain ⟨-, -, -, k4, -⟩ := wsDrawLoop_again _ _ _ _ _ _ _ (Nat.le_refl _) (by omega)
            (by rw [hb1]; omega) hi1 e
          have hbk : ∀ j, idx < j → x1.buf.back[j]? = x.buf.back[j]? := fun j hj => by
            rw [hk1, List.getElem?_set, if_neg (by omega)]
          refine ⟨idx :: js, ⟨List.pairwise_cons.mpr ⟨fun j hj => ?_, h1.sorted⟩, fun j hj => ?_,
            fun j g1 g2 g3 g4 => ?_, fun j g1 g2 => ?_⟩, ?_⟩
          · have := h1.mem j hj; omega
          · rcases List.mem_cons.mp hj with rfl | hj
            · exact ⟨Nat.le_refl _, by omega, by rw [hb, hk]; simpa using hco⟩
            · have := h1.mem j hj
              exact ⟨by omega, by omega, by rw [← hb1, ← hbk j (by omega)]; exact this.2.2⟩
          · by_cases hj : j = idx
            · subst hj; exact List.mem_cons_self ..
            · have hl : Live u x.buf.buffer j := g3.resolve_left hj
              by_cases hj2 : j < idx + 1 + skipOf u c n
              · exact absurd hl (hgap j (by omega) hj2)
              · exact List.mem_cons_of_mem _ (h1.all j (by omega) (by omega)
                  (Or.inr (by rw [hb1]; exact hl)) (by rw [hb1, hbk j (by omega)]; exact g4))
          · by_cases hj : j = idx
            · subst hj
              left
              rw [k4 j (by omega), hk1, List.getElem?_set, if_pos rfl, if_pos hlt', hb]
            · by_cases hj2 : j < idx + 1 + skipOf u c n
              · exact Or.inr ⟨by omega, hgap j (by omega) hj2⟩
              · have := h1.synced j (by omega) (by omega)
                rw [hb1] at this
                rcases this with h | h
                · exact Or.inl h
                · exact Or.inr ⟨by omega, h.2⟩
          · have he : unitsAt x1.buf = unitsAt x.buf := by funext j; unfold unitsAt; rw [hb1]
            rw [he] at h2
            have : unitsAt x.buf idx = c.text.flatMap encodeUtf16 := by unfold unitsAt; rw [hb]; rfl
            rw [List.flatMap_cons, this]
            exact ad.trans h2

/-- The cells a successful refresh writes, and what it leaves in the record. -/
theorem wsRefresh_sent {u : UEnv} {t : WTerm} {x x' : WScr} (hi : x.buf.Inv)
    (e : wsRefresh u t x = .ok () x') :
    ∃ js, Sent u x.buf x'.buf 0 x.buf.size.area js ∧ Adds (js.flatMap (unitsAt x.buf)) x.w x'.w ∧
      x'.buf = { x.buf with back := x'.buf.back } := by
  unfold wsRefresh at e
  obtain ⟨_, x1, e1, e⟩ := sm_bind_ok e
  obtain ⟨_, x2, e2, e⟩ := sm_bind_ok e
  rw [sm_bind, sm_get] at e
  dsimp only at e
  obtain ⟨_, x3, e3, e⟩ := sm_bind_ok e
  obtain ⟨_, x4, e4, e⟩ := sm_bind_ok e
  have h1 : x1.buf = x.buf ∧ Adds [] x.w x1.w := by
    unfold wsClearIfNeeded at e1
    rw [sm_bind, sm_get] at e1
    dsimp only at e1
    cases hc : x.clear with
    | false => rw [hc] at e1; cases e1; exact ⟨rfl, .refl _⟩
    | true =>
      rw [hc] at e1
      obtain ⟨_, x0, f1, f2⟩ := sm_bind_ok (show (onT (winClearScreen t) >>= fun _ =>
        SM.modify fun s => { s with clear := false }) x = _ from e1)
      have := onT_buf f1
      have ha := onT_adds (.clearScreen t) f1
      cases f2
      exact ⟨this.1, ha⟩
  have h2 : x2.buf = x.buf := (onT_buf e2).1.trans h1.1
  have a2 := h1.2.silent (onT_adds (.setAttributes t _) e2)
  have hi2 : x2.buf.Inv := by rw [h2]; exact hi
  have harea : x2.buf.buffer.length = 0 + x2.buf.size.area := by
    rw [hi2.len]; unfold Size.area; omega
  obtain ⟨k1, -, -, -, -⟩ := wsDrawLoop_again _ _ _ _ _ _ _ (Nat.le_refl _) (by omega) harea hi2 e3
  obtain ⟨js, g1, g2⟩ := wsDrawLoop_sent _ _ _ _ _ _ _ (Nat.le_refl _) (by omega) harea hi2 e3
  have h4 := onT_buf e4
  have z4 : GoodSize x4.buf.size := by rw [h4.1, k1]; exact hi2.size
  have a4 := onT_adds (.setAttributes t _) e4
  rw [wsPlaceCursor_eq x4 z4] at e
  obtain ⟨b5, -, -, -⟩ := wsMoveCursor_ok e
  have hbuf : x'.buf = x3.buf := b5.trans h4.1
  refine ⟨js, by rw [hbuf, ← h2]; exact g1, ?_, by rw [hbuf, ← h2]; exact k1⟩
  have a3 := (a2.trans g2).trans (a4.silent (wsMove_adds e))
  rw [List.nil_append, List.append_nil, h2] at a3
  exact a3

theorem units_chars (b : Buf) (js : List Nat) :
    decode16 (js.flatMap (unitsAt b)) = some ((js.map (posOf b.size)).flatMap (charsAt b), []) := by
  have : js.flatMap (unitsAt b) = ((js.map (posOf b.size)).flatMap (charsAt b)).flatMap encodeUtf16 := by
    induction js with
    | nil => rfl
    | cons j js ih =>
      rw [List.flatMap_cons, ih, List.map_cons, List.flatMap_cons, List.flatMap_append]
      congr 1
      unfold unitsAt charsAt cellAt
      have : (posOf b.size j).line * b.size.columns + (posOf b.size j).column = j := numOf_posOf' j
      rw [this]
      cases b.buffer[j]? <;> rfl
  rw [this, decode16_text]

/-- The cells written by a refresh, as positions. -/
theorem win_sent_positions {u : UEnv} {t : WTerm} {x x' : WScr} (hg : GridOk x.buf)
    (h : wsRefresh u t x = .ok () x') {D : List WEv} (hl : x'.w.log = x.w.log ++ D)
    (hh : HonestWrites D) :
    ∃ ps : List Cursor, ps.Pairwise Before ∧
      (∀ p ∈ ps, InBounds p x.buf.size ∧ cellAt x.buf p ≠ x.buf.back[numOf x.buf.size p]?) ∧
      (∀ p, InBounds p x.buf.size → ¬ Shadowed u x.buf p →
        cellAt x.buf p ≠ x.buf.back[numOf x.buf.size p]? → p ∈ ps) ∧
      decode16 (accepted x.w.outH D) = some (ps.flatMap (charsAt x.buf), []) ∧
      WritesTo x.w.outH D := by
  have hi : x.buf.Inv := ⟨hg.size, hg.len, hg.backLen, hg.text⟩
  obtain ⟨js, h1, h2, -⟩ := wsRefresh_sent hi h
  obtain ⟨-, D', l1, l2, l3⟩ := h2
  rw [l1] at hl
  have := List.append_cancel_left hl
  subst this
  refine ⟨js.map (posOf x.buf.size), ?_, ?_, ?_, ?_, l2⟩
  · rw [List.pairwise_map]
    exact h1.sorted.imp fun h => before_posOf hg.size.2.1 h
  · intro p hp
    rw [List.mem_map] at hp
    obtain ⟨j, hj, rfl⟩ := hp
    have := h1.mem j hj
    refine ⟨(inBounds_posOf hg.size).mpr (by have := this.2.1; unfold Size.area at this; omega), ?_⟩
    show x.buf.buffer[numOf x.buf.size (posOf x.buf.size j)]? ≠ _
    rw [numOf_posOf']
    exact this.2.2
  · intro p hin hs hne
    rw [List.mem_map]
    refine ⟨numOf x.buf.size p, ?_, posOf_numOf' hin⟩
    have := numOf_lt hin
    exact h1.all _ (Nat.zero_le _) (by unfold Size.area; omega) (Or.inr (live_shadow.mpr hs)) hne
  · rw [l3 hh, units_chars]

/-- What a refresh leaves in the record. -/
theorem win_synced {u : UEnv} {t : WTerm} {x x' : WScr} (hg : GridOk x.buf)
    (h : wsRefresh u t x = .ok () x') : x'.buf = { x.buf with back := x'.buf.back } ∧
      ∀ p, InBounds p x.buf.size → ¬ Shadowed u x.buf p →
        x'.buf.back[numOf x.buf.size p]? = cellAt x.buf p := by
  have hi : x.buf.Inv := ⟨hg.size, hg.len, hg.backLen, hg.text⟩
  obtain ⟨js, h1, -, h3⟩ := wsRefresh_sent hi h
  refine ⟨h3, fun p hin hs => ?_⟩
  have := numOf_lt hin
  rcases h1.synced (numOf x.buf.size p) (Nat.zero_le _) (by unfold Size.area; omega) with h | h
  · exact h
  · exact absurd (live_shadow.mpr hs) h.2

end Mortal
