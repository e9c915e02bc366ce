import Verif.Spec.Ledger
import Verif.Lemmas.SessionRun

/-!
# Following the bookkeeping of `Spec/Ledger.lean` through a refresh
-/

namespace Mortal
open Spec

/-- The cells of a range that differ from the record, by number. -/
def dueIx (b : Buf) (idx n : Nat) : List Nat :=
  (List.range' idx n).filter fun j => decide (b.buffer[j]? ≠ b.back[j]?)

theorem dueIx_succ (b : Buf) (idx n : Nat) : dueIx b idx (n + 1) =
    if b.buffer[idx]? ≠ b.back[idx]? then idx :: dueIx b (idx + 1) n else dueIx b (idx + 1) n := by
  unfold dueIx
  rw [List.range'_succ, List.filter_cons]
  simp only [decide_eq_true_eq]

theorem dueIx_congr {b b' : Buf} {idx n : Nat} (h1 : b'.buffer = b.buffer)
    (h2 : ∀ j, idx ≤ j → b'.back[j]? = b.back[j]?) : dueIx b' idx n = dueIx b idx n := by
  unfold dueIx
  refine List.filter_congr fun j hj => ?_
  rw [h1, h2 j (List.mem_range'_1.mp hj).1]

/-- What the cell with this number is to look like. -/
def picAt (u : UEnv) (b : Buf) (j : Nat) : TCell := ((b.buffer[j]?).map (pic u)).getD .torn

/-- The cells `js` have been drawn and the cells `ks` recorded. -/
structure Drew (u : UEnv) (s s' : Scr) (t t' : Term) (js ks : List Nat) : Prop where
  cells : ∀ j, t'.cell (posOf t.size j) =
    if j ∈ js then picAt u s.buf j else t.cell (posOf t.size j)
  back : ∀ j, s'.buf.back[j]? = if j ∈ ks then s.buf.buffer[j]? else s.buf.back[j]?
  texts : sentTexts s'.w.log = sentTexts s.w.log ++ js.map (encAt s.buf)

theorem Drew.nil (u : UEnv) (s : Scr) (t : Term) : Drew u s s t t [] [] :=
  ⟨fun _ => by simp, fun _ => by simp, by simp⟩

/-- Drawing one cell and then others after it. -/
theorem Drew.cons {u : UEnv} {s s1 s2 : Scr} {t t1 t2 : Term} {idx : Nat} {js ks : List Nat}
    (h1 : Drew u s s1 t t1 [idx] [idx]) (h2 : Drew u s1 s2 t1 t2 js ks) (hz : t1.size = t.size)
    (hb : s1.buf.buffer = s.buf.buffer) :
    Drew u s s2 t t2 (idx :: js) (idx :: ks) := by
  constructor
  · intro j
    have e1 := h1.cells j
    have e2 := h2.cells j
    rw [hz] at e2
    rw [e2]
    by_cases hm : j ∈ js
    · rw [if_pos hm, if_pos (List.mem_cons_of_mem _ hm)]
      unfold picAt; rw [hb]
    · rw [if_neg hm, e1]
      simp [hm]
  · intro j
    rw [h2.back, h1.back, hb]
    by_cases hm : j ∈ ks
    · rw [if_pos hm, if_pos (List.mem_cons_of_mem _ hm)]
    · rw [if_neg hm]
      simp [hm]
  · rw [h2.texts, h1.texts]
    have : encAt s1.buf = encAt s.buf := by funext j; unfold encAt; rw [hb]
    rw [this]
    simp

theorem drawCell_sent_err {env : WEnv} {p : Cursor} {c : Cell} {s s' s1 : Scr} {w2 : WS} {e : IoErr}
    (h1 : s.moveCursor env p = .ok s1) (h2 : setAttrs env c.fg c.bg c.style s1.w = .ok w2)
    (h : s.drawCell env p c = .err e s') : sentTexts s'.w.log = sentTexts s.w.log := by
  unfold Scr.drawCell at h
  rw [h1, andThen_ok, onW_ok h2, andThen_ok] at h
  have a1 := moveS_sent h1
  have a2 : sentTexts w2.log = sentTexts s1.w.log :=
    always_ok (inva_setAttrs (invA_sent env _) c.fg c.bg c.style s1.w rfl) h2
  rw [onW_def] at h
  cases e3 : writeBytes (encode c.text) w2 with
  | stop x => simp only [e3] at h; cases h
  | err e' w3 =>
    simp only [e3] at h
    cases h
    show sentTexts w3.log = _
    rw [((writeBytes_same (b := encode c.text) (w := w2)).2 _ _ e3).1, a2, a1]
  | ok w3 =>
    simp only [e3] at h
    rw [andThen_ok] at h
    dsimp only at h
    split at h <;> cases h

/-- One cell is drawn. -/
theorem Sync.draw_ledger {u : UEnv} (hu : SpaceOk u) {env : WEnv} (hdb : DrawDB env)
    {X : Nat → Prop} {idx n : Nat} {s : Scr} {t : Term} (h : Sync u X idx s t) (ha : AllNarrow t)
    (hnw : NoWide u s.buf) (hlen : s.buf.buffer.length = idx + (n + 1)) {c : Cell}
    (hb : s.buf.buffer[idx]? = some c) (hne : s.buf.back[idx]? ≠ some c) :
    (∀ s', (s.mark idx c).drawCell env (posOf s.buf.size idx) c = .ok s' → ∃ new t',
      s'.w.log = s.w.log ++ new ∧ t.play u new = some t' ∧ t'.size = t.size ∧
      Sync u X (idx + 1) s' t' ∧ Kept s s' ∧ AllNarrow t' ∧ Drew u s s' t t' [idx] [idx]) ∧
    (∀ e s', (s.mark idx c).drawCell env (posOf s.buf.size idx) c = .err e s' → ∃ new t',
      s'.w.log = s.w.log ++ new ∧ t.play u new = some t' ∧ t'.size = t.size ∧ Kept s s' ∧
      Drew u s s' t t' [] [idx]) := by
  have hlt : idx < s.buf.buffer.length := by omega
  have hmem := List.mem_of_getElem? hb
  have hwf := hnw c hmem
  have hin : InBounds (posOf t.size idx) t.size := by
    rw [h.size]; exact (inBounds_posOf h.grid.size).mpr (by rw [← h.grid.len]; exact hlt)
  have hstep := drawCell_step u hdb (s := s.mark idx c) (t := t) (p := posOf t.size idx) (c := c) h.lk hin
    (by rw [h.size]; exact h.l32) (by rw [h.size]; exact h.c32) (h.good c hmem)
    (by rw [hwf]; intro e; cases e) h.paired
    (h.cur_at hu hlt) (by rw [h.size]; exact h.grid.size.2.2.2)
  have hsync := h.draw hu hdb hlen hb hne
  have hsk : skipOf u c n = 0 := by unfold skipOf; rw [hwf]; simp
  rw [hsk] at hsync
  rw [← h.size] at hsync ⊢
  have hback := mark_back h.toBase hlt c
  constructor
  · intro s' es
    obtain ⟨new, t', a1, a2, a3, a4, a5, a6, a7, a8, a9, a10⟩ := hstep.1 s' es
    obtain ⟨new2, t2, b1, b2, b3, b4, b5, -⟩ := hsync.1 s' es
    have hnew : new2 = new := by
      rw [a1] at b1
      exact (List.append_cancel_left b1).symm
    subst hnew
    have ht : t2 = t' := by rw [a2, Option.some.injEq] at b2; exact b2.symm
    subst ht
    refine ⟨new2, t2, a1, a2, a4, b3, b4, b5 ha hnw, ?_, ?_, ?_⟩
    · intro j
      rw [a6]
      unfold drawnCells narrowCells
      rw [hwf]
      obtain ⟨x0, d0, e0⟩ := ha (posOf t.size idx)
      rw [e0]
      by_cases hj : j = idx
      · subst hj
        simp [picAt, hb]
      · have hp : posOf t.size j ≠ posOf t.size idx := fun e => hj (by
          have := congrArg (numOf t.size) e
          rwa [numOf_posOf, numOf_posOf] at this)
        obtain ⟨x1, d1, e1⟩ := ha (posOf t.size j)
        simp [hp, hj, TCell.isLeft, e1]
    · intro j
      rw [a9, hback]
      by_cases hj : j = idx
      · subst hj; simp [hb]
      · simp [hj]
    · rw [drawCell_sent es]
      show sentTexts s.w.log ++ _ = _
      simp [encAt, hb]
  · intro e s' es
    obtain ⟨new, t', a1, a2, a3, a4, a5, a6, a7, a8, a9, a10⟩ := hstep.2 e s' es
    refine ⟨new, t', a1, a2, a4, ⟨by rw [a9]; rfl, a10⟩, ?_, ?_, ?_⟩
    · intro j
      rw [a6]; simp
    · intro j
      rw [a9, hback]
      by_cases hj : j = idx
      · subst hj; simp [hb]
      · simp [hj]
    · have hmv : ∃ s1, (s.mark idx c).moveCursor env (posOf t.size idx) = .ok s1 ∧
          ∃ t1 : Term, Lk s1.w t1 := by
        unfold Scr.moveCursor
        by_cases hr : (s.mark idx c).real = posOf t.size idx
        · rw [if_neg (by simpa using hr)]
          exact ⟨_, rfl, t, h.lk⟩
        · rw [if_pos hr]
          obtain ⟨w', new, e1, e2, e3, -, e4, e5⟩ := moveCursor_step u hdb (w := (s.mark idx c).w) h.lk hin
            (by rw [h.size]; exact h.l32) (by rw [h.size]; exact h.c32)
          rw [onW_ok e1, andThen_ok]
          exact ⟨_, rfl, _, e5⟩
      obtain ⟨s1, m1, t1, k1⟩ := hmv
      obtain ⟨w2, n2, e2, -⟩ := setAttrs_step u hdb.attrs c.fg c.bg c.style k1
      rw [drawCell_sent_err m1 e2 es]
      show sentTexts s.w.log = _
      simp

/-- The loop of `refresh`. -/
theorem drawLoop_ledger {u : UEnv} (hu : SpaceOk u) {env : WEnv} (hdb : DrawDB env) {X : Nat → Prop} :
    ∀ (n f idx : Nat) (s : Scr) (t : Term), n < f → s.buf.buffer.length = idx + n →
      Sync u X idx s t → AllNarrow t → NoWide u s.buf →
    (∀ s', s.drawLoop u env f (idx, n) = .ok s' → ∃ new t',
      s'.w.log = s.w.log ++ new ∧ t.play u new = some t' ∧ t'.size = t.size ∧
      Sync u X (idx + n) s' t' ∧ Drew u s s' t t' (dueIx s.buf idx n) (dueIx s.buf idx n)) ∧
    (∀ e s', s.drawLoop u env f (idx, n) = .err e s' → ∃ k new t',
      s'.w.log = s.w.log ++ new ∧ t.play u new = some t' ∧ t'.size = t.size ∧
      k < (dueIx s.buf idx n).length ∧
      Drew u s s' t t' ((dueIx s.buf idx n).take k) ((dueIx s.buf idx n).take (k + 1))) := by
  intro n
  induction n with
  | zero =>
    intro f idx s t hf hlen h _ _
    obtain ⟨f, rfl⟩ : ∃ g, f = g + 1 := ⟨f - 1, by omega⟩
    rw [drawLoop_done]
    constructor
    · intro s' e; cases e
      exact ⟨[], t, by simp, rfl, rfl, h, Drew.nil u s t⟩
    · intro e s' e'; cases e'
  | succ n ih =>
    intro f idx s t hf hlen h ha hnw
    obtain ⟨f, rfl⟩ : ∃ g, f = g + 1 := ⟨f - 1, by omega⟩
    have hlt : idx < s.buf.buffer.length := by omega
    have hb : s.buf.buffer[idx]? = some s.buf.buffer[idx] := List.getElem?_eq_getElem hlt
    have hlt' : idx < s.buf.back.length := by rw [h.grid.backLen, ← h.grid.len]; exact hlt
    have hk : s.buf.back[idx]? = some s.buf.back[idx] := List.getElem?_eq_getElem hlt'
    generalize s.buf.buffer[idx] = c at hb
    generalize s.buf.back[idx] = old at hk
    have hne : c.text ≠ [] := h.grid.text c (List.mem_of_getElem? hb)
    have hsk : skipOf u c n = 0 := by
      unfold skipOf; rw [hnw c (List.mem_of_getElem? hb)]; simp
    by_cases hco : c = old
    · subst hco
      rw [drawLoop_same hb hne hk, hsk]
      have hs := h.skip hu hlen hb hk
      rw [hsk] at hs
      have := ih (f + 1) (idx + 1) s t (by omega) (by omega) hs ha hnw
      rw [show idx + 1 + n = idx + (n + 1) by omega] at this
      rw [dueIx_succ, if_neg (by rw [hb, hk]; simp)]
      exact this
    · rw [drawLoop_draw hb hne hk hco (by have := h.grid.size.2.1; omega), hsk]
      obtain ⟨d1, d2⟩ := h.draw_ledger hu hdb ha hnw hlen hb
        (fun e => hco (Option.some.inj (e.symm.trans hk)))
      have hD : dueIx s.buf idx (n + 1) = idx :: dueIx s.buf (idx + 1) n := by
        rw [dueIx_succ, if_pos (by rw [hb, hk]; simpa using hco)]
      rw [hD]
      cases ed : (s.mark idx c).drawCell env (posOf s.buf.size idx) c with
      | stop x => constructor <;> intros <;> contradiction
      | err e1 s1 =>
        rw [andThen_err]
        obtain ⟨new, t', b1, b2, b3, b4, b5⟩ := d2 e1 s1 ed
        constructor
        · intro s' e; cases e
        · intro e s' e'
          cases e'
          exact ⟨0, new, t', b1, b2, b3, by simp, by simpa using b5⟩
      | ok s1 =>
        rw [andThen_ok]
        obtain ⟨new, t', b1, b2, b3, b4, b5, b6, b7⟩ := d1 s1 ed
        have hbe : s1.buf.buffer = s.buf.buffer := by rw [b5.buf]
        have hnw1 : NoWide u s1.buf := by unfold NoWide; rw [hbe]; exact hnw
        have hD1 : dueIx s1.buf (idx + 1) n = dueIx s.buf (idx + 1) n := by
          refine dueIx_congr hbe fun j hj => ?_
          rw [b7.back, if_neg]
          rw [List.mem_singleton]; omega
        obtain ⟨i1, i2⟩ := ih f (idx + 1) s1 t' (by omega) (by rw [hbe]; omega) b4 b6 hnw1
        rw [hD1] at i1 i2
        rw [show idx + 1 + n = idx + (n + 1) by omega] at i1
        constructor
        · intro s' e
          obtain ⟨new', t'', c1, c2, c3, c4, c5⟩ := i1 s' e
          refine ⟨new ++ new', t'', ?_, ?_, c3.trans b3, c4, b7.cons c5 b3 hbe⟩
          · rw [c1, b1, List.append_assoc]
          · rw [play_append, b2, Option.bind_some, c2]
        · intro e s' e'
          obtain ⟨k, new', t'', c1, c2, c3, c4, c5⟩ := i2 e s' e'
          refine ⟨k + 1, new ++ new', t'', ?_, ?_, c3.trans b3, by simp; omega, ?_⟩
          · rw [c1, b1, List.append_assoc]
          · rw [play_append, b2, Option.bind_some, c2]
          · rw [List.take_succ_cons, List.take_succ_cons]
            exact b7.cons c5 b3 hbe

/-- The attributes of a cell the terminal clears. -/
def inkOf (t : Term) : DevAttrs := if t.bce then t.attrs else .plain

/-- The beginning of `refresh`: what is on the terminal and in the log. -/
theorem begin_cells {u : UEnv} {env : WEnv} (hdb : DrawDB env) {s s1 : Scr} {t t1 : Term}
    {new : List Out} (hl : Lk s.w t)
    (e : (s.clearIfNeeded env >>? Scr.onW (clearAttributes env)) = .ok s1)
    (hlog : s1.w.log = s.w.log ++ new) (hp : t.play u new = some t1) :
    (∀ q, t1.cell q = if s.clear then .narrow [' '] (inkOf t) else t.cell q) ∧
      t1.size = t.size ∧ sentTexts s1.w.log = sentTexts s.w.log := by
  cases hc : s.clear with
  | false =>
    unfold Scr.clearIfNeeded at e
    rw [hc, if_neg (by simp), andThen_ok] at e
    obtain ⟨w1, n1, e1, th1, l1, -, p1, k1⟩ := clear_step u hdb.attrs hl
    rw [onW_ok e1] at e
    cases e
    have hn : n1 = new := by
      rw [show ({ s with w := w1 } : Scr).w.log = w1.log from rfl, l1] at hlog
      exact List.append_cancel_left hlog
    subst hn
    rw [p1, Option.some.injEq] at hp
    subst hp
    exact ⟨fun q => rfl, rfl, always_ok (inva_clear (invA_sent env _) s.w rfl) e1⟩
  | true =>
    unfold Scr.clearIfNeeded at e
    obtain ⟨f, hf, hg⟩ := hdb.clear
    obtain ⟨w', e1, e2, e3⟩ := expand_step (env := env) (c := .clearScreen) (ps := []) (w := s.w)
      (hg [])
    have ereq : expandReq env .clearScreen [] s.w = .ok w' := by
      unfold expandReq; rw [hf]; exact e1
    rw [hc, if_pos rfl, onW_ok ereq, andThen_ok, andThen_ok] at e
    let t0 : Term := { t with cell := fun _ => .narrow [' '] (if t.bce then t.attrs else .plain),
                              cur := some ⟨0, 0⟩, last := none }
    have hlk : Lk w' t0 := hl.push e2 e3 (by simp [IsAttrCap]) rfl
    obtain ⟨w1, n1, e4, th1, l1, -, p1, k1⟩ := clear_step u hdb.attrs hlk
    rw [onW_ok (s := { s with w := w', clear := false }) e4] at e
    cases e
    have hn : [.cap .clearScreen []] ++ n1 = new := by
      rw [show ({ s with w := w1, clear := false } : Scr).w.log = w1.log from rfl, l1, e3,
        List.append_assoc] at hlog
      exact List.append_cancel_left hlog
    subst hn
    have hp0 : t.play u [.cap .clearScreen []] = some t0 := by rw [play_one]; rfl
    rw [play_append, hp0, Option.bind_some, p1, Option.some.injEq] at hp
    subst hp
    refine ⟨fun q => rfl, rfl, ?_⟩
    show sentTexts w1.log = _
    rw [show sentTexts w1.log = sentTexts w'.log from
      always_ok (inva_clear (invA_sent env _) w' rfl) e4, e3, sent_cap]

/-- What a refresh has done when it has drawn the first `k` of the cells that differ. -/
structure Went (u : UEnv) (s s' : Scr) (t t' : Term) (k : Nat) : Prop where
  size : t'.size = t.size
  cells : ∀ j, t'.cell (posOf t.size j) =
    if j ∈ (dueIx s.buf 0 s.buf.size.area).take k then picAt u s.buf j
    else if s.clear then .narrow [' '] (inkOf t) else t.cell (posOf t.size j)
  back : ∀ j, s'.buf.back[j]? =
    if j ∈ (dueIx s.buf 0 s.buf.size.area).take (k + 1) then s.buf.buffer[j]? else s.buf.back[j]?
  texts : sentTexts s'.w.log =
    sentTexts s.w.log ++ ((dueIx s.buf 0 s.buf.size.area).take k).map (encAt s.buf)

theorem refresh_ledger {u : UEnv} (hT : TableOk u) {env : WEnv} (hdb : DrawDB env) {bad : List Nat}
    {x : Sess} (h : NInv u env bad x) :
    (∀ s', x.s.refresh u env = .ok s' → ∃ new t', s'.w.log = x.s.w.log ++ new ∧
      x.t.play u new = some t' ∧
      Went u x.s s' x.t t' (dueIx x.s.buf 0 x.s.buf.size.area).length) ∧
    (∀ e s', x.s.refresh u env = .err e s' → ∃ new t' k, s'.w.log = x.s.w.log ++ new ∧
      x.t.play u new = some t' ∧ k ≤ (dueIx x.s.buf 0 x.s.buf.size.area).length ∧
      Went u x.s s' x.t t' k) := by
  obtain ⟨s1, n1, t1, e1, l1, p1, y1, b1, r1, c1, a1, -⟩ :=
    refresh_begin hdb h.held h.stale (Or.inr ⟨h.narrow, h.noWide⟩)
  obtain ⟨q1, q2, q3⟩ := begin_cells hdb h.held.lk e1 l1 p1
  have hlen : s1.buf.buffer.length = 0 + s1.buf.size.area := by
    rw [Nat.zero_add]; exact y1.grid.len
  have hloop := drawLoop_ledger hT.space hdb (X := fun j => j ∈ bad) s1.buf.size.area
    (s1.buf.size.area + 1) 0 s1 t1 (Nat.lt_succ_self _) hlen y1 (a1 h.narrow)
    (by rw [b1]; exact h.noWide)
  rw [refresh_eq, e1, andThen_ok]
  cases e2 : s1.drawLoop u env (s1.buf.size.area + 1) (0, s1.buf.size.area) with
  | stop x => rw [andThen_stop]; constructor <;> intros <;> contradiction
  | err e s2 =>
    rw [andThen_err]
    obtain ⟨k, n2, t2, l2, p2, z2, k2, d2⟩ := hloop.2 e s2 e2
    rw [b1] at k2 d2
    constructor
    · intro s' e'; cases e'
    · intro e' s' ee
      cases ee
      refine ⟨n1 ++ n2, t2, k, by rw [l2, l1, List.append_assoc], ?_, Nat.le_of_lt k2, ?_⟩
      · rw [play_append, p1, Option.bind_some, p2]
      · refine ⟨z2.trans q2, fun j => ?_, fun j => ?_, ?_⟩
        · have := d2.cells j
          rw [q2, q1, b1] at this
          exact this
        · have := d2.back j
          rw [b1] at this; exact this
        · have := d2.texts
          rw [b1, q3] at this; exact this
  | ok s2 =>
    obtain ⟨n2, t2, l2, p2, z2, y2, d2⟩ := hloop.1 s2 e2
    obtain ⟨s3, n3, t3, e3, l3, p3, y3, b3, c3, r3, cc3, z3, th3, at3, cu3⟩ := refresh_end hdb y2
    rw [andThen_ok, e3, andThen_ok]
    rw [b1] at d2
    have hplay : x.t.play u (n1 ++ n2 ++ n3) = some t3 := by
      rw [play_append, play_append, p1, Option.bind_some, p2, Option.bind_some, p3]
    have hlog : s3.w.log = x.s.w.log ++ (n1 ++ n2 ++ n3) := by
      rw [l3, l2, l1]; simp only [List.append_assoc]
    have hsent : sentTexts s3.w.log = sentTexts s2.w.log := by
      obtain ⟨s4, e4, e5⟩ := andThen_inv e3
      have t4 : sentTexts s4.w.log = sentTexts s2.w.log :=
        always_ok (inva_clear (invA_sent env _) s2.w rfl) (onW_inv e4).1
      have b4 : s4.buf = s2.buf := congrArg SData.buf (onW_inv e4).2
      rw [placeCursor_eq env s4 (by rw [b4]; exact y2.grid.size)] at e5
      rw [moveS_sent e5, t4]
    have went : ∀ w4 : WS, w4.log = s3.w.log →
        Went u x.s { s3 with w := w4 } x.t t3 (dueIx x.s.buf 0 x.s.buf.size.area).length := by
      intro w4 g1
      refine ⟨z3.trans (z2.trans q2), fun j => ?_, fun j => ?_, ?_⟩
      · have := d2.cells j
        rw [q2, q1, b1] at this
        rw [cc3, List.take_length]
        exact this
      · have := d2.back j
        rw [b1] at this
        rw [List.take_of_length_le (Nat.le_succ _)]
        show s3.buf.back[j]? = _
        rw [b3]; exact this
      · have := d2.texts
        rw [b1, q3] at this
        rw [List.take_length]
        show sentTexts w4.log = _
        rw [g1, hsent]; exact this
    obtain ⟨fo, fe⟩ := flush_same (w := s3.w)
    rw [onW_def]
    cases e4 : flush s3.w with
    | stop x => dsimp only; constructor <;> intros <;> contradiction
    | ok w4 =>
      dsimp only
      obtain ⟨g1, g2⟩ := fo w4 e4
      constructor
      · intro s' ee
        cases ee
        exact ⟨n1 ++ n2 ++ n3, t3, by rw [← hlog]; exact g1, hplay, went w4 g1⟩
      · intro e s' ee; cases ee
    | err e w4 =>
      dsimp only
      obtain ⟨g1, g2⟩ := fe e w4 e4
      constructor
      · intro s' ee; cases ee
      · intro e' s' ee
        cases ee
        exact ⟨n1 ++ n2 ++ n3, t3, _, by rw [← hlog]; exact g1, hplay, Nat.le_refl _, went w4 g1⟩

/-! ## Sessions -/

/-- The bookkeeping agrees with the state. -/
structure Tally (x : Sess) (L : Ledger) : Prop where
  buf : x.s.buf = L.buf.wb x.s.buf.back
  shown : ∀ p, InBounds p x.t.size → x.t.cell p = L.shown p
  noted : ∀ p, InBounds p x.t.size → ∃ k, x.s.buf.back[numOf x.t.size p]? = some k ∧
    (L.noted p = some k ∨ (L.noted p = none ∧ k.text = []))
  wipe : L.wipe = x.s.clear

theorem cellAt_num (b : Buf) (p : Cursor) : cellAt b p = b.buffer[numOf b.size p]? := rfl

theorem mem_take_pos {z : Size} {l : List Nat} {k : Nat} {p : Cursor} (h : InBounds p z) :
    p ∈ (l.map (posOf z)).take k ↔ numOf z p ∈ l.take k := by
  rw [← List.map_take, List.mem_map]
  constructor
  · rintro ⟨j, hj, rfl⟩
    rw [numOf_posOf]; exact hj
  · intro hj
    exact ⟨_, hj, posOf_numOf h⟩

theorem Tally.due {u : UEnv} {env : WEnv} {bad : List Nat} {x : Sess} {L : Ledger}
    (h : NInv u env bad x) (t : Tally x L) :
    L.due = (dueIx x.s.buf 0 x.s.buf.size.area).map (posOf x.t.size) := by
  have hz : x.t.size = x.s.buf.size := h.held.size
  have hb : L.buf.size = x.s.buf.size := by rw [t.buf]; rfl
  have hbb : L.buf.buffer = x.s.buf.buffer := by rw [t.buf]; rfl
  unfold Ledger.due allCells dueIx
  rw [List.filter_map, hb, hz, List.range_eq_range']
  refine congrArg _ (List.filter_congr fun j hj => ?_)
  have hj : j < x.s.buf.size.lines * x.s.buf.size.columns := by
    have := (List.mem_range'_1.mp hj).2; omega
  have hin : InBounds (posOf x.s.buf.size j) x.t.size := by
    rw [hz]; exact (inBounds_posOf h.held.grid.size).mpr hj
  obtain ⟨k, k1, k2⟩ := t.noted _ hin
  rw [hz, numOf_posOf] at k1
  have hc : cellAt L.buf (posOf x.s.buf.size j) = x.s.buf.buffer[j]? := by
    rw [cellAt_num, hb, hbb, numOf_posOf]
  show decide (cellAt L.buf (posOf x.s.buf.size j) ≠ L.noted (posOf x.s.buf.size j)) = _
  rw [hc, k1]
  have hlt : j < x.s.buf.buffer.length := by rw [h.held.grid.len]; exact hj
  have hg : x.s.buf.buffer[j]? = some x.s.buf.buffer[j] := List.getElem?_eq_getElem hlt
  have hne := h.held.grid.text _ (List.mem_of_getElem? hg)
  rw [hg]
  rcases k2 with k2 | ⟨k2, k3⟩
  · rw [k2]
  · rw [k2]
    have : x.s.buf.buffer[j] ≠ k := fun e => hne (by rw [e]; exact k3)
    simp [this]

/-- The texts of a refresh, its place in the list of due cells, and the agreement afterwards. -/
theorem Tally.went {u : UEnv} {env : WEnv} {bad : List Nat} {x : Sess} {L : Ledger}
    (h : NInv u env bad x) (t : Tally x L) {s' : Scr} {t' : Term} {k : Nat} {new : List Out}
    (hk : k ≤ (dueIx x.s.buf 0 x.s.buf.size.area).length)
    (hl : s'.w.log = x.s.w.log ++ new) (hw : Went u x.s s' x.t t' k)
    (hb : s'.buf = x.s.buf.wb s'.buf.back) (hc : s'.clear = false) :
    handed x ⟨s', t'⟩ = (L.due.take k).map (textAt L.buf) ∧ k ≤ L.due.length ∧
      Tally ⟨s', t'⟩ (L.refreshed u (handed x ⟨s', t'⟩).length (clearInk x)) := by
  have hz : x.t.size = x.s.buf.size := h.held.size
  have hdue := t.due h
  have hsz : L.buf.size = x.s.buf.size := by rw [t.buf]; rfl
  have hbb : L.buf.buffer = x.s.buf.buffer := by rw [t.buf]; rfl
  have hlen : k ≤ L.due.length := by rw [hdue, List.length_map]; exact hk
  have hh : handed x ⟨s', t'⟩ = (L.due.take k).map (textAt L.buf) := by
    unfold handed
    have e1 := hw.texts
    show sentTexts (s'.w.log.drop _) = _
    rw [hl, drop_append_length]
    rw [hl, sent_append] at e1
    rw [List.append_cancel_left e1, hdue, ← List.map_take, List.map_map]
    refine List.map_congr_left fun j _ => ?_
    show encAt x.s.buf j = textAt L.buf (posOf x.t.size j)
    unfold encAt textAt
    rw [cellAt_num, hsz, hbb, hz, numOf_posOf]
  have hn : (handed x ⟨s', t'⟩).length = k := by
    rw [hh, List.length_map, List.length_take, Nat.min_eq_left hlen]
  refine ⟨hh, hlen, ?_⟩
  rw [hn]
  have hbuf : s'.buf = L.buf.wb s'.buf.back := by rw [t.buf, wb_wb] at hb; exact hb
  refine ⟨hbuf, ?_, ?_, hc.symm⟩
  · intro p hin
    have hin : InBounds p x.t.size := by rw [← hw.size]; exact hin
    have := hw.cells (numOf x.t.size p)
    rw [posOf_numOf hin] at this
    show t'.cell p = (if p ∈ L.due.take k then _ else if L.wipe = true then _ else _)
    have hp : cellAt L.buf p = x.s.buf.buffer[numOf x.t.size p]? := by
      rw [cellAt_num, hsz, hbb, hz]
    rw [this, hdue, t.wipe, hp]
    by_cases hm : numOf x.t.size p ∈ (dueIx x.s.buf 0 x.s.buf.size.area).take k
    · rw [if_pos hm, if_pos ((mem_take_pos hin).mpr hm)]
      unfold picAt
      have : picture u = pic u := funext (picture_eq u)
      rw [this]
    · rw [if_neg hm, if_neg (fun e => hm ((mem_take_pos hin).mp e)), t.shown p hin]
      rfl
  · intro p hin
    have hin : InBounds p x.t.size := by rw [← hw.size]; exact hin
    show ∃ c, s'.buf.back[numOf t'.size p]? = some c ∧
      ((if p ∈ L.due.take (k + 1) then cellAt L.buf p else L.noted p) = some c ∨
        ((if p ∈ L.due.take (k + 1) then cellAt L.buf p else L.noted p) = none ∧ c.text = []))
    rw [hw.size, hw.back, hdue]
    have hp : cellAt L.buf p = x.s.buf.buffer[numOf x.t.size p]? := by
      rw [cellAt_num, hsz, hbb, hz]
    by_cases hm : numOf x.t.size p ∈ (dueIx x.s.buf 0 x.s.buf.size.area).take (k + 1)
    · rw [if_pos hm, if_pos ((mem_take_pos hin).mpr hm), hp]
      have hlt : numOf x.t.size p < x.s.buf.buffer.length := by
        rw [h.held.grid.len, hz]; rw [hz] at hin; exact numOf_lt hin
      exact ⟨_, List.getElem?_eq_getElem hlt, Or.inl (List.getElem?_eq_getElem hlt)⟩
    · rw [if_neg hm, if_neg (fun e => hm ((mem_take_pos hin).mp e))]
      exact t.noted p hin

/-- One step of a session. -/
theorem Tally.step {u : UEnv} (hT : TableOk u) {env : WEnv} (hdb : DrawDB env) {bad : List Nat}
    {x y : Sess} {L : Ledger} {r : Bool} (h : NInv u env bad x) (t : Tally x L) {st : SStep}
    (hst : NarrowStep u st) (e : st.run u env x = some (r, y)) :
    ∃ L', L.step u (handed x y).length (clearInk x) st = some L' ∧ Tally y L' ∧
      (st = .refresh → handed x y = (L.due.take (handed x y).length).map (textAt L.buf) ∧
        (handed x y).length ≤ L.due.length ∧ (r = true → (handed x y).length = L.due.length)) := by
  have hz : x.t.size = x.s.buf.size := h.held.size
  cases st with
  | draw op =>
    obtain ⟨hop, hs, hm⟩ := hst
    have e' := e
    simp only [SStep.run, Option.map_eq_some_iff] at e
    obtain ⟨b, e1, e2⟩ := e
    cases e2
    obtain ⟨b', g1, g2⟩ := content_run u env [.draw op] x _ [true] L.buf t.buf (by
      rw [runS, e']; rfl)
    have g1 : (op.run u L.buf).bind some = some b' := g1
    rw [Option.bind_eq_some_iff] at g1
    obtain ⟨b1, g1, e5⟩ := g1
    cases e5
    refine ⟨{ L with buf := b' }, by show (op.run u L.buf).map _ = _; rw [g1]; rfl, ?_, nofun⟩
    have heff := op_effect hT.space hop e1
    exact ⟨g2, t.shown, fun p hin => by
      obtain ⟨k, k1, k2⟩ := t.noted p hin
      exact ⟨k, by rw [← k1]; exact congrArg (·[_]?) heff.back, k2⟩, t.wipe⟩
  | resized z cell cur =>
    obtain ⟨hz', hp⟩ := hst
    have e' := e
    simp only [SStep.run, Option.map_eq_some_iff] at e
    obtain ⟨d, e1, e2⟩ := e
    cases e2
    obtain ⟨b', g1, g2⟩ := content_run u env [.resized z cell cur] x _ [true] L.buf t.buf (by
      rw [runS, e']; rfl)
    have g1 : ((BufOp.resize z).run u L.buf).bind some = some b' := g1
    rw [Option.bind_eq_some_iff] at g1
    obtain ⟨b1, g1, e5⟩ := g1
    cases e5
    refine ⟨⟨b', cell, fun _ => none, true⟩, by show ((BufOp.resize z).run u L.buf).map _ = _; rw [g1]; rfl, ?_, nofun⟩
    unfold SData.updateSize at e1
    obtain ⟨b2, e3, hi, hsz, -, -, -, -, hback, -⟩ := resize_inv h.held.grid hz'.1
    rw [e3] at e1
    have e1 : _ = d := Option.some.inj e1
    subst e1
    refine ⟨g2, fun _ _ => rfl, fun p hin => ⟨Cell.invalid, ?_, Or.inr ⟨rfl, rfl⟩⟩, rfl⟩
    show b2.back[numOf z p]? = _
    have hin : numOf z p < z.area := numOf_lt hin
    rw [hback, List.getElem?_replicate, if_pos hin]
  | refresh =>
    obtain ⟨hok, herr⟩ := refresh_ledger hT hdb h
    obtain ⟨hok', herr'⟩ := refresh_sync hT.space hdb h.held h.stale (Or.inr ⟨h.narrow, h.noWide⟩)
    simp only [SStep.run] at e
    cases e1 : x.s.refresh u env with
    | stop y => rw [e1] at e; cases e
    | ok s' =>
      rw [e1] at e
      obtain ⟨new, t', l1, p1, w1⟩ := hok s' e1
      obtain ⟨_, _, _, _, a1, b1, _⟩ := hok' s' e1
      dsimp only at e
      rw [l1, drop_append_length, p1, Option.map_some, Option.some.injEq, Prod.mk.injEq] at e
      obtain ⟨rfl, rfl⟩ := e
      obtain ⟨g1, g2, g3⟩ := t.went h (Nat.le_refl _) l1 w1 b1 a1.noClear
      have hn : (dueIx x.s.buf 0 x.s.buf.size.area).length = L.due.length := by
        rw [t.due h, List.length_map]
      rw [hn, List.take_length] at g1
      have hn' : (handed x ⟨s', t'⟩).length = L.due.length := by rw [g1, List.length_map]
      refine ⟨_, rfl, g3, fun _ => ⟨?_, Nat.le_of_eq hn', fun _ => hn'⟩⟩
      rw [hn', List.take_length]; exact g1
    | err e2 s' =>
      rw [e1] at e
      obtain ⟨new, t', k, l1, p1, k1, w1⟩ := herr e2 s' e1
      obtain ⟨_, _, _, _, _, _, c1, b1, _⟩ := herr' e2 s' e1
      dsimp only at e
      rw [l1, drop_append_length, p1, Option.map_some, Option.some.injEq, Prod.mk.injEq] at e
      obtain ⟨rfl, rfl⟩ := e
      obtain ⟨g1, g2, g3⟩ := t.went h k1 l1 w1 b1 c1
      have hn' : (handed x ⟨s', t'⟩).length = k := by
        rw [g1, List.length_map, List.length_take, Nat.min_eq_left g2]
      refine ⟨_, rfl, g3, fun _ => ⟨?_, by rw [hn']; exact g2, nofun⟩⟩
      rw [hn']; exact g1

theorem tally_start {u : UEnv} (hT : TableOk u) {env : WEnv} (hdb : DrawDB env) {z : Size}
    (hz : ScreenSize z) {x : Sess} (h : Opened u env z x) : Tally x (Ledger.start z) := by
  obtain ⟨h1, ⟨bc, h2⟩, h3, h4⟩ := opened_start hT hdb hz h
  have hb : x.s.buf = Buf.new z := congrArg SData.buf h4
  have hts : x.t.size = z := by rw [h2]; rfl
  refine ⟨by rw [hb]; rfl, fun p _ => by rw [h2]; rfl, fun p hin => ⟨Cell.default, ?_, Or.inl rfl⟩, ?_⟩
  · rw [hts] at hin ⊢
    rw [hb]
    show (List.replicate z.area Cell.default)[_]? = _
    rw [List.getElem?_replicate, if_pos (by exact numOf_lt hin)]
  · rw [show x.s.clear = false from congrArg SData.clear h4]; rfl

/-- A whole session. -/
theorem tally_run {u : UEnv} (hT : TableOk u) {env : WEnv} (hdb : DrawDB env) :
    ∀ (steps : List SStep) (bad : List Nat) (x y : Sess) (rs : List Bool) (L : Ledger),
      NInv u env bad x → Tally x L → (∀ st ∈ steps, NarrowStep u st) →
      runS u env steps x = some (rs, y) →
      ∃ L' bad', Ledger.follow u env steps x L = some L' ∧ Tally y L' ∧ NInv u env bad' y := by
  intro steps
  induction steps with
  | nil =>
    intro bad x y rs L h t _ e
    simp only [runS, Option.some.injEq, Prod.mk.injEq] at e
    obtain ⟨rfl, rfl⟩ := e
    exact ⟨L, bad, rfl, t, h⟩
  | cons st steps ih =>
    intro bad x y rs L h t hs e
    rw [runS] at e
    cases e1 : st.run u env x with
    | none => rw [e1] at e; cases e
    | some v =>
      obtain ⟨r, x'⟩ := v
      rw [e1] at e
      dsimp only at e
      rw [Option.map_eq_some_iff] at e
      obtain ⟨⟨l, y'⟩, e2, e3⟩ := e
      cases e3
      obtain ⟨bad1, h1, -⟩ := h.step hT hdb (hs st (List.mem_cons_self ..)) e1
      obtain ⟨L1, g1, g2, -⟩ := t.step hT hdb h (hs st (List.mem_cons_self ..)) e1
      obtain ⟨L2, bad2, k1, k2, k3⟩ := ih bad1 x' y' l L1 h1 g2
        (fun s hs' => hs s (List.mem_cons_of_mem _ hs')) e2
      refine ⟨L2, bad2, ?_, k2, k3⟩
      rw [Ledger.follow, e1, Option.bind_some]
      dsimp only
      rw [g1, Option.bind_some]; exact k1

end Mortal
