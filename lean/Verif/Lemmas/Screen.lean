import Verif.Lemmas.Term
import Verif.Lemmas.WriterBytes
import Verif.Lemmas.BufferWide

/-! # Refreshing a screen -/

namespace Mortal
open Spec

/-! ## What the writer's calls put on the wire -/

/-- The writer's idea of the attributes is right for this terminal. -/
structure Lk (w : WS) (t : Term) : Prop where
  dev : devAttrs w.log = view w.theme
  term : t.attrs = view w.theme

theorem allAttr_inv (env : WEnv) (hf : FullAttrs env) (L : List Out) :
    InvA env fun s => ∃ new, s.log = L ++ new ∧ AllAttr new where
  attrs := fun s fg bg st h => h
  expand := by
    rintro c ps f s hc hdb ⟨new, e, h⟩
    obtain ⟨g, hg, hgood⟩ := hf c hc
    rw [hdb, Option.some.injEq] at hg
    subst hg
    unfold expand
    have := hgood ps
    cases hfp : f ps with
    | mk bytes good =>
      rw [hfp] at this
      dsimp only at this
      subst this
      refine Always.ok ⟨new ++ [.cap c ps], ?_, ?_⟩
      · simp [e]
      · intro o ho
        rcases List.mem_append.mp ho with ho | ho
        · exact h o ho
        · rw [List.mem_singleton] at ho
          exact ⟨c, ps, ho, hc⟩

theorem attrs_play (u : UEnv) {w w' : WS} {t : Term} (hl : Lk w t) {new : List Out}
    (e : w'.log = w.log ++ new) (ha : AllAttr new) (hd : devAttrs w'.log = view w'.theme) :
    t.play u new = some { t with attrs := view w'.theme } := by
  rw [play_attrs u ha]
  congr 2
  rw [hl.term, ← hl.dev, ← devAttrs_append, ← e, hd]

theorem setAttrs_step (u : UEnv) {env : WEnv} (hf : FullAttrs env) (fg bg : Option Color)
    (st : Style) {w : WS} {t : Term} (hl : Lk w t) :
    ∃ w' new, setAttrs env fg bg st w = .ok w' ∧ w'.theme = ⟨fg, bg, st⟩ ∧
      w'.log = w.log ++ new ∧ AllAttr new ∧
      t.play u new = some { t with attrs := view ⟨fg, bg, st⟩ } ∧
      Lk w' { t with attrs := view ⟨fg, bg, st⟩ } := by
  have h1 := setAttrs_post (F := FullAttrs env) (env := env) fg bg st
    (s := w) (t := w.theme) ⟨rfl, fun _ => hl.dev⟩
  have h2 := inva_setAttrs (allAttr_inv env hf w.log) fg bg st w
    ⟨[], by simp, by intro o ho; cases ho⟩
  cases e : setAttrs env fg bg st w with
  | ok w' =>
    rw [e] at h1 h2
    have h2 : ∃ new, w'.log = w.log ++ new ∧ AllAttr new := h2 w' rfl
    obtain ⟨new, e', ha⟩ := h2
    obtain ⟨hth, hdv⟩ := h1
    have hdv := hdv hf
    rw [← hth] at hdv
    have := attrs_play u hl e' ha hdv
    rw [hth] at this
    exact ⟨w', new, rfl, hth, e', ha, this, ⟨hdv, by rw [hth]⟩⟩
  | err e1 w' => rw [e] at h1; exact absurd hf h1
  | stop x => rw [e] at h1; exact h1.elim

theorem clear_step (u : UEnv) {env : WEnv} (hf : FullAttrs env) {w : WS} {t : Term} (hl : Lk w t) :
    ∃ w' new, clearAttributes env w = .ok w' ∧ w'.theme = plainTheme ∧
      w'.log = w.log ++ new ∧ AllAttr new ∧
      t.play u new = some { t with attrs := view plainTheme } ∧
      Lk w' { t with attrs := view plainTheme } := by
  have h1 := clear_post (F := FullAttrs env) (env := env)
    (s := w) (t := w.theme) ⟨rfl, fun _ => hl.dev⟩
  have h2 := inva_clear (allAttr_inv env hf w.log) w ⟨[], by simp, by intro o ho; cases ho⟩
  cases e : clearAttributes env w with
  | ok w' =>
    rw [e] at h1 h2
    have h2 : ∃ new, w'.log = w.log ++ new ∧ AllAttr new := h2 w' rfl
    obtain ⟨new, e', ha⟩ := h2
    obtain ⟨hth, hdv⟩ := h1
    have hdv := hdv hf
    rw [← hth] at hdv
    have := attrs_play u hl e' ha hdv
    rw [hth] at this
    exact ⟨w', new, rfl, hth, e', ha, this, ⟨hdv, by rw [hth]⟩⟩
  | err e1 w' => rw [e] at h1; exact absurd hf h1
  | stop x => rw [e] at h1; exact h1.elim

theorem expand_step {env : WEnv} {c : Cap} {ps : List Nat} {f : List Nat → Bytes × Bool} {w : WS}
    (hg : (f ps).2 = true) :
    ∃ w', expand env c ps f w = .ok w' ∧ w'.theme = w.theme ∧ w'.log = w.log ++ [.cap c ps] := by
  unfold expand
  cases hfp : f ps with
  | mk bytes good =>
    rw [hfp] at hg
    dsimp only at hg
    subst hg
    exact ⟨_, rfl, rfl, rfl⟩

theorem Lk.push {w w' : WS} {t t' : Term} {o : Out} (h : Lk w t) (hth : w'.theme = w.theme)
    (hl : w'.log = w.log ++ [o]) (ho : ∀ c ps, o = .cap c ps → ¬ IsAttrCap c)
    (ht : t'.attrs = t.attrs) : Lk w' t' := by
  refine ⟨?_, ?_⟩
  · rw [hl, devAttrs_snoc, devStep_other ho, h.dev, hth]
  · rw [ht, h.term, hth]

theorem moveCursor_step (u : UEnv) {env : WEnv} (hdb : DrawDB env) {w : WS} {t : Term} (hl : Lk w t)
    {p : Cursor} (hin : InBounds p t.size) (h1 : t.size.lines ≤ 2 ^ 32)
    (h2 : t.size.columns ≤ 2 ^ 32) :
    ∃ w' new, moveCursor env p w = .ok w' ∧ w'.theme = w.theme ∧ w'.log = w.log ++ new ∧
      (∀ o ∈ new, ∀ b, o ≠ .text b) ∧
      t.play u new = some { t with cur := some p, last := none } ∧
      Lk w' { t with cur := some p, last := none } := by
  obtain ⟨f, hf, hg⟩ := hdb.addr
  have haddr : ∃ w' new, expand env .cursorAddress [toU32 p.line, toU32 p.column] f w = .ok w' ∧
      w'.theme = w.theme ∧ w'.log = w.log ++ new ∧
      (∀ o ∈ new, ∀ b, o ≠ .text b) ∧
      t.play u new = some { t with cur := some p, last := none } ∧
      Lk w' { t with cur := some p, last := none } := by
    obtain ⟨w', e1, e2, e3⟩ := expand_step (env := env) (c := .cursorAddress)
      (ps := [toU32 p.line, toU32 p.column]) (w := w) (hg _)
    refine ⟨w', _, e1, e2, e3, by simp, ?_, hl.push e2 e3 (by simp [IsAttrCap]) rfl⟩
    have a1 : toU32 p.line = p.line := by
      unfold toU32; rw [if_neg]; have := hin.1; omega
    have a2 : toU32 p.column = p.column := by
      unfold toU32; rw [if_neg]; have := hin.2; omega
    rw [play_one, a1, a2]
    show (if InBounds ⟨p.line, p.column⟩ t.size then _ else _) = _
    rw [if_pos hin]
  unfold moveCursor
  cases hh : env.db .cursorHome with
  | none => rw [hf]; exact haddr
  | some home =>
    rw [hf]
    dsimp only
    by_cases hp : p = ⟨0, 0⟩
    · rw [if_pos hp]
      obtain ⟨w', e1, e2, e3⟩ := expand_step (env := env) (c := .cursorHome)
        (ps := []) (w := w) (hdb.home home hh _)
      refine ⟨w', _, e1, e2, e3, by simp, ?_, hl.push e2 e3 (by simp [IsAttrCap]) rfl⟩
      rw [play_one, hp]; rfl
    · rw [if_neg hp]; exact haddr

/-- The effect of `flush` on the log and the attributes: none. -/
theorem flush_same {w : WS} :
    (∀ w', flush w = .ok w' → w'.log = w.log ∧ w'.theme = w.theme) ∧
    (∀ e w', flush w = .err e w' → w'.log = w.log ∧ w'.theme = w.theme) := by
  unfold flush
  split
  · constructor <;> intros <;> contradiction
  · split
    · constructor <;> intros <;> contradiction
    · dsimp only
      split
      · constructor
        · intro w' h; cases h; exact ⟨rfl, rfl⟩
        · intro e w' h; cases h
      · constructor
        · intro w' h; cases h
        · intro e w' h; cases h; exact ⟨rfl, rfl⟩

theorem writeBytes_same {b : Bytes} {w : WS} :
    (∀ w', writeBytes b w = .ok w' → w'.log = w.log ++ [.text b] ∧ w'.theme = w.theme) ∧
    (∀ e w', writeBytes b w = .err e w' → w'.log = w.log ∧ w'.theme = w.theme) := by
  have key : ∀ w1 : WS, w1.log = w.log → w1.theme = w.theme →
      let o := (if b.length > w1.capacity then
        match writeData b w1.os 0 w1.dev with
        | .blocked => .stop .blocked
        | .done _ os dev none => .ok { w1 with os := os, dev := dev, log := w1.log ++ [.text b] }
        | .done _ os dev (some e) => .err e { w1 with os := os, dev := dev }
        else .ok { w1 with pending := w1.pending ++ b, log := w1.log ++ [.text b] } : Outcome WS)
      (∀ w', o = .ok w' → w'.log = w.log ++ [.text b] ∧ w'.theme = w.theme) ∧
      (∀ e w', o = .err e w' → w'.log = w.log ∧ w'.theme = w.theme) := by
    intro w1 hl ht
    dsimp only
    split
    · split
      · constructor <;> intros <;> contradiction
      · constructor
        · intro w' h; cases h; exact ⟨by simp [hl], ht⟩
        · intro e w' h; cases h
      · constructor
        · intro w' h; cases h
        · intro e w' h; cases h; exact ⟨hl, ht⟩
    · constructor
      · intro w' h; cases h; exact ⟨by simp [hl], ht⟩
      · intro e w' h; cases h
  unfold writeBytes
  split
  · cases e1 : flush w with
    | ok w1 =>
      obtain ⟨a, b'⟩ := flush_same.1 w1 e1
      exact key w1 a b'
    | err e2 w1 =>
      obtain ⟨a, b'⟩ := flush_same.2 e2 w1 e1
      constructor
      · intro w' h; cases h
      · intro e w' h; cases h; exact ⟨a, b'⟩
    | stop x => constructor <;> intros <;> contradiction
  · exact key w rfl rfl

/-! ## The loop -/

theorem onW_def (f : WS → Outcome WS) (s : Scr) : s.onW f =
    match f s.w with
    | .ok w => .ok { s with w := w }
    | .err e w => .err e { s with w := w }
    | .stop h => .stop h := rfl

theorem onW_ok {f : WS → Outcome WS} {s : Scr} {w : WS} (h : f s.w = .ok w) :
    s.onW f = .ok { s with w := w } := by rw [onW_def, h]

theorem andThen_ok {σ : Type} (s : σ) (f : σ → Outcome σ) : (Outcome.ok s >>? f) = f s := rfl
theorem andThen_err {σ : Type} (e : IoErr) (s : σ) (f : σ → Outcome σ) :
    (Outcome.err e s >>? f) = .err e s := rfl
theorem andThen_stop {σ : Type} (x : Stop) (f : σ → Outcome σ) :
    (Outcome.stop x >>? f) = .stop x := rfl

/-- The number of extra cells skipped after the cell at `idx` of a range with `n` more. -/
def skipOf (u : UEnv) (c : Cell) (n : Nat) : Nat := if c.isWide u then min n 1 else 0

theorem firstChar_of {c : Cell} (h : c.text ≠ []) : ∃ ch, c.firstChar = some ch ∧
    ∀ u, (u : UEnv).w ch = 2 ↔ c.isWide u = true := by
  cases ht : c.text with
  | nil => exact absurd ht h
  | cons ch ms =>
    refine ⟨ch, by simp [Cell.firstChar, ht], fun u => ?_⟩
    simp [Cell.isWide, ht]

theorem nextCell_succ (u : UEnv) (n idx : Nat) (b : Buf) :
    Buf.nextCell u (n + 1) idx b = (do
      let cell ← b.buffer[idx]?
      let first ← cell.firstChar
      let old ← b.back[idx]?
      if cell ≠ old then
        if b.size.columns = 0 then none
        else
          pure ({ b with back := b.back.set idx cell },
            (idx + 1 + (if u.w first = 2 then min n 1 else 0),
              n - (if u.w first = 2 then min n 1 else 0)),
            some (⟨idx / b.size.columns, idx % b.size.columns⟩, cell))
      else
        if (if u.w first = 2 then min n 1 else 0) = 0 then Buf.nextCell u n (idx + 1) b
        else
          match n with
          | 0 => some (b, (idx + 1, 0), none)
          | n' + 1 => Buf.nextCell u n' (idx + 2) b) := by
  cases n <;> rfl

/-- `s` with the back buffer's cell `i` replaced. -/
def Scr.mark (s : Scr) (i : Nat) (c : Cell) : Scr :=
  { s with buf := { s.buf with back := s.buf.back.set i c } }

theorem drawLoop_done (u : UEnv) (env : WEnv) (f idx : Nat) (s : Scr) :
    s.drawLoop u env (f + 1) (idx, 0) = .ok s := rfl

theorem nextCell_same {u : UEnv} {idx n : Nat} {b : Buf} {c : Cell}
    (hb : b.buffer[idx]? = some c) (ht : c.text ≠ []) (hk : b.back[idx]? = some c) :
    b.nextCell u (n + 1) idx = b.nextCell u (n - skipOf u c n) (idx + 1 + skipOf u c n) := by
  obtain ⟨ch, hch, hw⟩ := firstChar_of ht
  rw [nextCell_succ, hb]
  simp only [Option.bind_eq_bind, Option.bind_some, hch, hk, ne_eq, not_true_eq_false, if_false]
  by_cases hwide : c.isWide u = true
  · rw [if_pos ((hw u).mpr hwide)]
    unfold skipOf
    rw [if_pos hwide]
    cases n with
    | zero => rfl
    | succ n =>
      rw [if_neg (by omega)]
      have : min (n + 1) 1 = 1 := by omega
      rw [this]; rfl
  · rw [if_neg (fun hh => hwide ((hw u).mp hh))]
    unfold skipOf
    rw [if_neg hwide]
    rfl

theorem drawLoop_same {u : UEnv} {env : WEnv} {f idx n : Nat} {s : Scr} {c : Cell}
    (hb : s.buf.buffer[idx]? = some c) (ht : c.text ≠ []) (hk : s.buf.back[idx]? = some c) :
    s.drawLoop u env (f + 1) (idx, n + 1) =
      s.drawLoop u env (f + 1) (idx + 1 + skipOf u c n, n - skipOf u c n) := by
  simp only [Scr.drawLoop]
  rw [nextCell_same hb ht hk]

theorem nextCell_draw {u : UEnv} {idx n : Nat} {b : Buf} {c old : Cell}
    (hb : b.buffer[idx]? = some c) (ht : c.text ≠ []) (hk : b.back[idx]? = some old)
    (hne : c ≠ old) (hcol : b.size.columns ≠ 0) :
    b.nextCell u (n + 1) idx =
      some ({ b with back := b.back.set idx c },
        (idx + 1 + skipOf u c n, n - skipOf u c n), some (posOf b.size idx, c)) := by
  obtain ⟨ch, hch, hw⟩ := firstChar_of ht
  rw [nextCell_succ, hb]
  simp only [Option.bind_eq_bind, Option.bind_some, hch, hk, ne_eq, hne, not_false_eq_true,
    if_true, hcol, if_false]
  by_cases hwide : c.isWide u = true
  · rw [if_pos ((hw u).mpr hwide)]
    unfold skipOf
    rw [if_pos hwide]
    rfl
  · rw [if_neg (fun hh => hwide ((hw u).mp hh))]
    unfold skipOf
    rw [if_neg hwide]
    rfl

theorem drawLoop_draw {u : UEnv} {env : WEnv} {f idx n : Nat} {s : Scr} {c old : Cell}
    (hb : s.buf.buffer[idx]? = some c) (ht : c.text ≠ []) (hk : s.buf.back[idx]? = some old)
    (hne : c ≠ old) (hcol : s.buf.size.columns ≠ 0) :
    s.drawLoop u env (f + 1) (idx, n + 1) =
      ((s.mark idx c).drawCell env (posOf s.buf.size idx) c >>?
        Scr.drawLoop u env f (idx + 1 + skipOf u c n, n - skipOf u c n)) := by
  simp only [Scr.drawLoop]
  rw [nextCell_draw hb ht hk hne hcol]
  rfl

/-- How a cell should look (computable form of `picture`). -/
def pic (u : UEnv) (c : Cell) : TCell :=
  if c.isWide u then .left c.text (view ⟨c.fg, c.bg, c.style⟩)
  else .narrow c.text (view ⟨c.fg, c.bg, c.style⟩)

theorem picture_eq (u : UEnv) (c : Cell) : picture u c = pic u c := by
  unfold picture pic
  by_cases h : c.isWide u = true
  · rw [if_pos h, if_pos (isWide_iff.mp h)]
  · rw [if_neg h, if_neg (fun hh => h (isWide_iff.mpr hh))]

/-- The cells after drawing `c` at `p`. -/
def drawnCells (u : UEnv) (f : Cursor → TCell) (p : Cursor) (c : Cell) (q : Cursor) : TCell :=
  if c.isWide u then wideCells f p (pic u c) q else narrowCells f p (pic u c) q

theorem drawCell_step (u : UEnv) {env : WEnv} (hdb : DrawDB env) {s : Scr} {t : Term} {p : Cursor}
    {c : Cell} (hl : Lk s.w t) (hin : InBounds p t.size) (h1 : t.size.lines ≤ 2 ^ 32)
    (h2 : t.size.columns ≤ 2 ^ 32) (hg : CellGood u c)
    (hfit : c.isWide u = true → p.column + 1 < t.size.columns) (hpair : t.Paired)
    (hcur : s.real = p → t.cur = some p) (hmax : t.size.columns ≤ usizeMax) :
    (∀ s', s.drawCell env p c = .ok s' → ∃ new t', s'.w.log = s.w.log ++ new ∧
      t.play u new = some t' ∧ Lk s'.w t' ∧ t'.size = t.size ∧ t'.Paired ∧
      (∀ q, t'.cell q = drawnCells u t.cell p c q) ∧
      s'.real = ⟨p.line, p.column + 1⟩ ∧ t'.cur = t.advance p (if c.isWide u then 2 else 1) ∧
      s'.buf = s.buf ∧ s'.clear = s.clear) ∧
    (∀ e s', s.drawCell env p c = .err e s' → ∃ new t', s'.w.log = s.w.log ++ new ∧
      t.play u new = some t' ∧ Lk s'.w t' ∧ t'.size = t.size ∧ t'.Paired ∧ t'.cell = t.cell ∧
      s'.real = p ∧ t'.cur = some p ∧ s'.buf = s.buf ∧ s'.clear = s.clear) := by
  have hmove : ∃ s1 n1 t1, s.moveCursor env p = .ok s1 ∧ s1.w.log = s.w.log ++ n1 ∧
      t.play u n1 = some t1 ∧ Lk s1.w t1 ∧ t1.size = t.size ∧ t1.Paired ∧ t1.cell = t.cell ∧
      s1.real = p ∧ t1.cur = some p ∧ s1.buf = s.buf ∧ s1.clear = s.clear := by
    unfold Scr.moveCursor
    by_cases hr : s.real = p
    · rw [if_neg (by simpa using hr)]
      exact ⟨s, [], t, rfl, by simp, rfl, hl, rfl, hpair, rfl, hr, hcur hr, rfl, rfl⟩
    · rw [if_pos hr]
      obtain ⟨w', new, e1, e2, e3, -, e4, e5⟩ := moveCursor_step u hdb hl hin h1 h2
      rw [onW_ok e1, andThen_ok]
      exact ⟨_, new, _, rfl, e3, e4, e5, rfl, hpair, rfl, rfl, rfl, rfl, rfl⟩
  obtain ⟨s1, n1, t1, e1, l1, p1, k1, z1, q1, c1, r1, u1, b1, d1⟩ := hmove
  obtain ⟨w2, n2, e2, th2, l2, -, p2, k2⟩ := setAttrs_step u hdb.attrs c.fg c.bg c.style k1
  have hd : s.drawCell env p c = (Scr.onW (writeBytes (encode c.text)) { s1 with w := w2 } >>?
      fun s => match uadd s.real.column 1 with
        | none => .stop .panic
        | some c => .ok { s with real := { s.real with column := c } }) := by
    unfold Scr.drawCell
    rw [e1, andThen_ok, onW_ok e2, andThen_ok]
    rfl
  rw [hd]
  obtain ⟨hok, herr⟩ := writeBytes_same (b := encode c.text) (w := w2)
  cases e3 : writeBytes (encode c.text) w2 with
  | stop x => rw [onW_def]; simp only [e3]; constructor <;> intros <;> contradiction
  | err e w3 =>
    obtain ⟨a1, a2⟩ := herr e w3 e3
    rw [onW_def]
    simp only [e3]
    constructor
    · intro s' h; cases h
    · intro e' s' h
      cases h
      refine ⟨n1 ++ n2, { t1 with attrs := view ⟨c.fg, c.bg, c.style⟩ }, ?_, ?_, ?_, z1, q1, c1,
        r1, u1, b1, d1⟩
      · simp [a1, l2, l1]
      · rw [play_append, p1, Option.bind_some, p2]
      · exact ⟨by rw [a1, a2]; exact k2.dev, by rw [a2]; exact k2.term⟩
  | ok w3 =>
    obtain ⟨a1, a2⟩ := hok w3 e3
    rw [onW_def]
    simp only [e3, andThen_ok]
    have hadd : uadd s1.real.column 1 = some (p.column + 1) := by
      rw [r1]; unfold uadd; rw [if_pos]
      have := hin.2; omega
    rw [hadd]
    constructor
    · intro s' h
      cases h
      obtain ⟨t', y1, y2, y3, y4, y5, y6⟩ := putText_cell (t := { t1 with attrs := view ⟨c.fg, c.bg, c.style⟩ }) hg
        u1 (by rw [z1]; exact hin) (by rw [z1]; exact hfit) q1
      refine ⟨n1 ++ n2 ++ [.text (encode c.text)], t', ?_, ?_, ?_, ?_, y4, ?_, ?_, ?_, b1, d1⟩
      · simp [a1, l2, l1]
      · rw [play_append, play_append, p1, Option.bind_some, p2, Option.bind_some, play_one,
          step_text]
        exact y1
      · exact k2.push a2 a1 (by simp) y3
      · rw [y2, z1]
      · intro q
        rw [y5]
        unfold drawnCells pic
        split
        · rw [c1]
        · rw [c1]
      · simp [r1]
      · rw [y6]; unfold Term.advance; rw [z1]
    · intro e' s' h; cases h

theorem numOf_right {z : Size} {i j k : Nat}
    (h : posOf z j = ⟨(posOf z i).line, (posOf z i).column + k⟩) : j = i + k := by
  have e1 := numOf_posOf (s := z) j
  have e2 := numOf_posOf (s := z) i
  rw [h] at e1
  unfold numOf at e1 e2
  dsimp only at e1
  omega

theorem numOf_left {z : Size} {i j : Nat} (h0 : 0 < (posOf z i).column)
    (h : posOf z j = ⟨(posOf z i).line, (posOf z i).column - 1⟩) : j + 1 = i := by
  have e1 := numOf_posOf (s := z) j
  have e2 := numOf_posOf (s := z) i
  rw [h] at e1
  unfold numOf at e1 e2
  dsimp only at e1
  omega

theorem posOf_right {z : Size} {i : Nat} (h : i % z.columns + 1 < z.columns) :
    posOf z (i + 1) = ⟨(posOf z i).line, (posOf z i).column + 1⟩ := by
  have hin : InBounds ⟨(posOf z i).line, (posOf z i).column + 1⟩
      ⟨(posOf z i).line + 1, z.columns⟩ := ⟨Nat.lt_succ_self _, h⟩
  have e := posOf_numOf hin
  have e2 := numOf_posOf (s := z) i
  have : numOf ⟨(posOf z i).line + 1, z.columns⟩ ⟨(posOf z i).line, (posOf z i).column + 1⟩ = i + 1 := by
    unfold numOf at e2 ⊢
    dsimp only at e2 ⊢
    omega
  rw [this] at e
  exact e

theorem posOf_ne {z : Size} {i j : Nat} (h : i ≠ j) : posOf z i ≠ posOf z j := by
  intro e
  apply h
  rw [← numOf_posOf (s := z) i, e, numOf_posOf]

theorem drawn_ix {u : UEnv} {t : Term} (hpair : t.Paired) (i : Nat) (c : Cell)
    (hfit : c.isWide u = true → i % t.size.columns + 1 < t.size.columns) :
    drawnCells u t.cell (posOf t.size i) c (posOf t.size i) = pic u c ∧
    (c.isWide u = true → drawnCells u t.cell (posOf t.size i) c (posOf t.size (i + 1)) = .right) ∧
    (∀ j, j ≠ i → (c.isWide u = true → j ≠ i + 1) →
      drawnCells u t.cell (posOf t.size i) c (posOf t.size j) = t.cell (posOf t.size j) ∨
      drawnCells u t.cell (posOf t.size i) c (posOf t.size j) = .torn) ∧
    (∀ j, i < j → (c.isWide u = true → j ≠ i + 1) → t.cell (posOf t.size j) ≠ .right →
      drawnCells u t.cell (posOf t.size i) c (posOf t.size j) = t.cell (posOf t.size j)) ∧
    (∀ j, j < i → (t.cell (posOf t.size i) = .right → j + 1 ≠ i) →
      drawnCells u t.cell (posOf t.size i) c (posOf t.size j) = t.cell (posOf t.size j)) := by
  have hp := paired_iff.mp hpair
  unfold drawnCells
  by_cases hw : c.isWide u = true
  · simp only [hw, if_true, forall_const]
    have hf := hfit hw
    unfold wideCells
    refine ⟨if_pos rfl, ?_, fun j h1 h2 => ?_, fun j h1 h2 h3 => ?_, fun j h1 h2 => ?_⟩
    · rw [if_neg (posOf_ne (by omega)), if_pos (posOf_right hf)]
    · rw [if_neg (posOf_ne h1), if_neg (fun e => h2 (numOf_right e))]
      split
      · exact Or.inr rfl
      · split
        · exact Or.inr rfl
        · exact Or.inl rfl
    · rw [if_neg (posOf_ne (by omega)), if_neg (fun e => h2 (numOf_right e)), if_neg, if_neg]
      · rintro ⟨a, b⟩
        have := numOf_left (hp.1 _ a).1 b
        omega
      · rintro ⟨a, b⟩
        have := (hp.2 _ a).2.2
        rw [b] at h3
        exact h3 this
    · rw [if_neg (posOf_ne (by omega)), if_neg (fun e => by have := numOf_right e; omega),
        if_neg (fun e => by have := numOf_right e.2; omega), if_neg]
      rintro ⟨a, b⟩
      exact h2 a (numOf_left (hp.1 _ a).1 b)
  · simp only [hw, if_false, Bool.false_eq_true, false_implies, forall_const]
    unfold narrowCells
    refine ⟨if_pos rfl, trivial, fun j h1 => ?_, fun j h1 h3 => ?_, fun j h1 h2 => ?_⟩
    · rw [if_neg (posOf_ne h1)]
      split
      · exact Or.inr rfl
      · split
        · exact Or.inr rfl
        · exact Or.inl rfl
    · rw [if_neg (posOf_ne (by omega)), if_neg, if_neg]
      · rintro ⟨a, b⟩
        have := numOf_left (hp.1 _ a).1 b
        omega
      · rintro ⟨a, b⟩
        have := (hp.2 _ a).2.2
        rw [b] at h3
        exact h3 this
    · rw [if_neg (posOf_ne (by omega)), if_neg (fun e => by have := numOf_right e.2; omega), if_neg]
      rintro ⟨a, b⟩
      exact h2 a (numOf_left (hp.1 _ a).1 b)

/-- The cell `j` is not covered by a two-column character to its left. -/
def Live (u : UEnv) (l : List Cell) (j : Nat) : Prop :=
  j = 0 ∨ ∀ c, l[j - 1]? = some c → c.isWide u = false

/-- Everything on the terminal is one column wide and intact. -/
def AllNarrow (t : Term) : Prop := ∀ q, ∃ x d, t.cell q = .narrow x d

/-- No cell of the buffer holds a two-column character. -/
def NoWide (u : UEnv) (b : Buf) : Prop := ∀ c ∈ b.buffer, c.isWide u = false

/-- The screen's records agree with the terminal, except for the cells in `X`. -/
structure Base (u : UEnv) (X : Nat → Prop) (s : Scr) (t : Term) : Prop where
  grid : s.buf.Inv
  good : ∀ c ∈ s.buf.buffer, CellGood u c
  torn : NoTornIx u s.buf.size.columns s.buf.buffer
  size : t.size = s.buf.size
  l32 : s.buf.size.lines ≤ 2 ^ 32
  c32 : s.buf.size.columns ≤ 2 ^ 32
  paired : t.Paired
  lk : Lk s.w t
  bk : ∀ j c, s.buf.back[j]? = some c → c.text ≠ [] → ¬ X j →
    t.cell (posOf t.size j) = pic u c ∨ t.cell (posOf t.size j) = .right ∨
      t.cell (posOf t.size j) = .torn

/-- The screen's idea of the cursor position is right, or its next movement will be sent. -/
def CurOk (s : Scr) (t : Term) : Prop :=
  InBounds s.real t.size → t.cur = some s.real ∨ t.cell s.real = .right

/-- The cells in `X` hold a character of one column, are not going to be drawn, and show what is left of
a character of two columns. -/
def Shy (u : UEnv) (X : Nat → Prop) (s : Scr) (t : Term) : Prop :=
  ∀ j, X j → Live u s.buf.buffer j ∧ (∃ c, s.buf.buffer[j]? = some c ∧ s.buf.back[j]? = some c ∧
    c.isWide u = false) ∧ (t.cell (posOf t.size j) = .right ∨ t.cell (posOf t.size j) = .torn)

theorem shy_none {u : UEnv} {X : Nat → Prop} (h : ∀ j, ¬ X j) (s : Scr) (t : Term) : Shy u X s t :=
  fun j hj => absurd hj (h j)

theorem Shy.keep {u : UEnv} {X : Nat → Prop} {s s' : Scr} {t t' : Term} (h : Shy u X s t)
    (hb : s'.buf = s.buf) (hsz : t'.size = t.size) (hc : t'.cell = t.cell) : Shy u X s' t' := by
  unfold Shy
  rw [hb, hsz, hc]
  exact h

/-- Invariant of the loop of `refresh`. -/
structure Sync (u : UEnv) (X : Nat → Prop) (idx : Nat) (s : Scr) (t : Term) : Prop
    extends Base u X s t where
  live : Live u s.buf.buffer idx
  fresh : ∀ j c, idx ≤ j → Live u s.buf.buffer j → ¬ X j → s.buf.buffer[j]? = some c →
    s.buf.back[j]? = some c →
    t.cell (posOf t.size j) ≠ .right ∧ t.cell (posOf t.size j) ≠ .torn
  done : ∀ j c, j < idx → Live u s.buf.buffer j → s.buf.buffer[j]? = some c →
    s.buf.back[j]? = some c ∧ (¬ X j → t.cell (posOf t.size j) = pic u c)
  cur : CurOk s t ∨ (idx = 0 ∧ t.cur = some ⟨0, 0⟩ ∧ s.buf.buffer[0]? ≠ s.buf.back[0]?)
  alt : Shy u X s t ∨ (AllNarrow t ∧ NoWide u s.buf)

theorem posOf_left {z : Size} (hz : 0 < z.columns) {i : Nat} (h : 0 < (posOf z i).column) :
    posOf z (i - 1) = ⟨(posOf z i).line, (posOf z i).column - 1⟩ := by
  have hlt : i % z.columns < z.columns := Nat.mod_lt _ hz
  have hin : InBounds ⟨(posOf z i).line, (posOf z i).column - 1⟩
      ⟨(posOf z i).line + 1, z.columns⟩ := ⟨Nat.lt_succ_self _, by
        show i % z.columns - 1 < z.columns; omega⟩
  have e := posOf_numOf hin
  have e2 := numOf_posOf (s := z) i
  have : numOf ⟨(posOf z i).line + 1, z.columns⟩ ⟨(posOf z i).line, (posOf z i).column - 1⟩ = i - 1 := by
    unfold numOf at e2 ⊢
    dsimp only at e2 ⊢
    omega
  rw [this] at e
  exact e

theorem not_live {u : UEnv} {l : List Cell} {j : Nat} (h : ¬ Live u l j) :
    j ≠ 0 ∧ ∃ c, l[j - 1]? = some c ∧ c.isWide u = true := by
  refine ⟨fun h0 => h (Or.inl h0), ?_⟩
  cases hc : l[j - 1]? with
  | none => exact absurd (Or.inr fun c e => by rw [hc] at e; cases e) h
  | some c =>
    refine ⟨c, rfl, ?_⟩
    cases hw : c.isWide u with
    | true => rfl
    | false =>
      refine absurd (Or.inr fun c' e => ?_) h
      rw [hc, Option.some.injEq] at e
      exact e ▸ hw

theorem live_of_wide {u : UEnv} (hu : SpaceOk u) {cols : Nat} {l : List Cell}
    (hn : NoTornIx u cols l) {j : Nat} {c : Cell} (hj : l[j]? = some c) (hw : c.isWide u = true) :
    Live u l j := by
  by_cases h0 : j = 0
  · exact Or.inl h0
  · refine Or.inr fun c' hc' => ?_
    cases hw' : c'.isWide u with
    | false => rfl
    | true =>
      obtain ⟨-, nxt, h1, h2⟩ := hn _ c' hc' hw'
      have : j - 1 + 1 = j := by omega
      rw [this, hj, Option.some.injEq] at h1
      subst h1
      exact absurd hw (by rw [not_wide_of_head_space hu h2]; simp)

theorem live_next {u : UEnv} (hu : SpaceOk u) {cols : Nat} {l : List Cell}
    (hn : NoTornIx u cols l) {j n : Nat} {c : Cell} (hj : l[j]? = some c)
    (hlen : l.length = j + (n + 1)) :
    Live u l (j + 1 + skipOf u c n) ∧
      (c.isWide u = true → skipOf u c n = 1 ∧ ¬ Live u l (j + 1)) := by
  unfold skipOf
  by_cases hw : c.isWide u = true
  · rw [if_pos hw]
    obtain ⟨-, nxt, h1, h2⟩ := hn j c hj hw
    have hlt : j + 1 < l.length := (List.getElem?_eq_some_iff.mp h1).1
    have : min n 1 = 1 := by omega
    rw [this]
    refine ⟨Or.inr fun c' hc' => ?_, fun _ => ⟨rfl, ?_⟩⟩
    · have : j + 1 + 1 - 1 = j + 1 := by omega
      rw [this, h1, Option.some.injEq] at hc'
      subst hc'
      exact not_wide_of_head_space hu h2
    · rintro (h | h)
      · omega
      · have := h c (by rw [← hj]; congr 1)
        rw [hw] at this; cases this
  · rw [if_neg hw]
    refine ⟨Or.inr fun c' hc' => ?_, fun h => absurd h hw⟩
    have : j + 1 + 0 - 1 = j := by omega
    rw [this, hj, Option.some.injEq] at hc'
    subst hc'
    simpa using hw

/-- A cell before which everything is drawn does not show a right half. -/
theorem Shy.not_right {u : UEnv} (hu : SpaceOk u) {X Y : Nat → Prop} {idx : Nat} {s : Scr}
    {t : Term} (hX : Shy u X s t) (h : Base u Y s t) (live : Live u s.buf.buffer idx)
    (done : ∀ j c, j < idx → Live u s.buf.buffer j → s.buf.buffer[j]? = some c → ¬ X j →
      t.cell (posOf t.size j) = pic u c)
    (hlt : idx < s.buf.buffer.length) : t.cell (posOf t.size idx) ≠ .right := by
  intro hr
  have hp := paired_iff.mp h.paired
  obtain ⟨hc0, hleft⟩ := hp.1 _ hr
  rw [← posOf_left (by rw [h.size]; exact h.grid.size.2.1) hc0] at hleft
  have hi0 : idx ≠ 0 := by
    rintro rfl
    simp [posOf] at hc0
  have hget : s.buf.buffer[idx - 1]? = some (s.buf.buffer[idx - 1]'(by omega)) :=
    List.getElem?_eq_getElem _
  by_cases hl : Live u s.buf.buffer (idx - 1)
  · by_cases hx : X (idx - 1)
    · obtain ⟨-, -, e⟩ := hX _ hx
      rcases e with e | e <;> (rw [e] at hleft; cases hleft)
    · have hd := done (idx - 1) _ (by omega) hl hget hx
      have hnw : (s.buf.buffer[idx - 1]'(by omega)).isWide u = false := by
        rcases live with h0 | h0
        · exact absurd h0 hi0
        · exact h0 _ hget
      rw [hd] at hleft
      unfold pic at hleft
      rw [hnw] at hleft
      cases hleft
  · obtain ⟨h1, c', hc', hw'⟩ := not_live hl
    have hl2 := live_of_wide hu h.torn hc' hw'
    have hx : ¬ X (idx - 1 - 1) := by
      intro hx
      obtain ⟨-, ⟨c, q1, -, q3⟩, -⟩ := hX _ hx
      rw [hc', Option.some.injEq] at q1
      subst q1
      rw [hw'] at q3
      cases q3
    have hd := done _ _ (by omega) hl2 hc' hx
    have hleft2 : (t.cell (posOf t.size (idx - 1 - 1))).isLeft = true := by
      rw [hd]; unfold pic; rw [if_pos hw']; rfl
    have hpr := (hp.2 _ hleft2).2
    rw [← posOf_right hpr.1] at hpr
    have : idx - 1 - 1 + 1 = idx - 1 := by omega
    rw [this] at hpr
    rw [hpr.2] at hleft
    cases hleft

/-- The cell the loop is at never shows a right half. -/
theorem Sync.not_right {u : UEnv} (hu : SpaceOk u) {X : Nat → Prop} {idx : Nat} {s : Scr}
    {t : Term} (h : Sync u X idx s t) (hlt : idx < s.buf.buffer.length) :
    t.cell (posOf t.size idx) ≠ .right := by
  intro hr
  rcases h.alt with hX | ⟨ha, -⟩
  · exact hX.not_right hu h.toBase h.live (fun j c h1 h2 h3 => (h.done j c h1 h2 h3).2) hlt hr
  · obtain ⟨x, d, e⟩ := ha (posOf t.size idx)
    rw [e] at hr; cases hr

theorem Sync.skip {u : UEnv} (hu : SpaceOk u) {X : Nat → Prop} {idx n : Nat} {s : Scr}
    {t : Term} (h : Sync u X idx s t) (hlen : s.buf.buffer.length = idx + (n + 1)) {c : Cell}
    (hb : s.buf.buffer[idx]? = some c) (hk : s.buf.back[idx]? = some c) :
    Sync u X (idx + 1 + skipOf u c n) s t := by
  obtain ⟨hl1, hl2⟩ := live_next hu h.torn hb hlen
  refine { h with live := hl1, fresh := ?_, done := ?_, cur := ?_, alt := h.alt }
  · intro j c' hj
    exact h.fresh j c' (by omega)
  · intro j c' hj hlj hbj
    by_cases h1 : j < idx
    · exact h.done j c' h1 hlj hbj
    · by_cases h2 : j = idx
      · subst h2
        rw [hb, Option.some.injEq] at hbj
        subst hbj
        refine ⟨hk, fun hx => ?_⟩
        obtain ⟨f1, f2⟩ := h.fresh _ _ (Nat.le_refl _) hlj hx hb hk
        have hne : c.text ≠ [] := h.grid.text c (List.mem_of_getElem? hb)
        rcases h.bk _ c hk hne hx with e | e | e
        · exact e
        · exact absurd e f1
        · exact absurd e f2
      · by_cases hw : c.isWide u = true
        · obtain ⟨e1, e2⟩ := hl2 hw
          have : j = idx + 1 := by omega
          subst this
          exact absurd hlj e2
        · unfold skipOf at hj
          rw [if_neg hw] at hj
          omega
  · rcases h.cur with hc | ⟨h0, -, h2⟩
    · exact Or.inl hc
    · subst h0
      rw [hb, hk] at h2
      exact absurd rfl h2

/-- Only the back buffer, the cursor record and the writer may differ. -/
structure Kept (s s' : Scr) : Prop where
  buf : s'.buf = { s.buf with back := s'.buf.back }
  clear : s'.clear = s.clear

theorem Kept.refl (s : Scr) : Kept s s := ⟨rfl, rfl⟩
theorem Kept.trans {a b c : Scr} (h1 : Kept a b) (h2 : Kept b c) : Kept a c := by
  refine ⟨?_, h2.clear.trans h1.clear⟩
  rw [h2.buf, h1.buf]

theorem Sync.cur_at {u : UEnv} (hu : SpaceOk u) {X : Nat → Prop} {idx : Nat} {s : Scr}
    {t : Term} (h : Sync u X idx s t) (hlt : idx < s.buf.buffer.length)
    (hr : s.real = posOf t.size idx) : t.cur = some (posOf t.size idx) := by
  have hin : InBounds (posOf t.size idx) t.size := by
    rw [h.size]; exact (inBounds_posOf h.grid.size).mpr (by rw [← h.grid.len]; exact hlt)
  rcases h.cur with hc | ⟨h0, h1, -⟩
  · rw [hr.symm] at hin
    rcases hc hin with e | e
    · rw [e, hr]
    · rw [hr] at e; exact absurd e (h.not_right hu hlt)
  · subst h0
    rw [h1]
    simp [posOf]

/-- The records of the cells behind two-column characters are left alone. -/
def Unmarked (u : UEnv) (s s' : Scr) : Prop :=
  ∀ j, ¬ Live u s.buf.buffer j → s'.buf.back[j]? = s.buf.back[j]?

theorem Unmarked.trans {u : UEnv} {a b c : Scr} (h1 : Unmarked u a b) (h2 : Unmarked u b c)
    (hb : b.buf.buffer = a.buf.buffer) : Unmarked u a c :=
  fun j hj => (h2 j (by rw [hb]; exact hj)).trans (h1 j hj)

theorem unmarked_same {u : UEnv} {s s' : Scr} (h : s'.buf = s.buf) : Unmarked u s s' :=
  fun j _ => by rw [h]

theorem unmarked_mark {u : UEnv} {s s' : Scr} {i : Nat} {c : Cell} (hl : Live u s.buf.buffer i)
    (h : s'.buf = (s.mark i c).buf) : Unmarked u s s' := by
  intro j hj
  rw [h]
  show (s.buf.back.set i c)[j]? = _
  rw [List.getElem?_set_ne]
  rintro rfl
  exact hj hl

theorem allNarrow_drawn {u : UEnv} {t t' : Term} {p : Cursor} {c : Cell} (ha : AllNarrow t)
    (hw : c.isWide u = false) (hc : ∀ q, t'.cell q = drawnCells u t.cell p c q) : AllNarrow t' := by
  intro q
  obtain ⟨x0, d0, e0⟩ := ha p
  rw [hc]
  unfold drawnCells narrowCells pic
  rw [hw, e0]
  by_cases hq : q = p
  · simp [hq]
  · obtain ⟨x, d, e⟩ := ha q
    simp [hq, TCell.isLeft, e]

theorem base_mark {u : UEnv} {X : Nat → Prop} {s s' : Scr} {t t' : Term} {i : Nat} {c : Cell}
    (h : Base u X s t) (hbuf : s'.buf = (s.mark i c).buf) (hsz : t'.size = t.size)
    (hp : t'.Paired) (hl : Lk s'.w t') (Y : Nat → Prop)
    (hbk : ∀ j c', (s.mark i c).buf.back[j]? = some c' → c'.text ≠ [] → ¬ Y j →
      t'.cell (posOf t'.size j) = pic u c' ∨ t'.cell (posOf t'.size j) = .right ∨
      t'.cell (posOf t'.size j) = .torn) : Base u Y s' t' := by
  refine ⟨?_, ?_, ?_, ?_, ?_, ?_, hp, hl, ?_⟩
  · rw [hbuf]
    exact ⟨h.grid.size, h.grid.len, by
      show (s.buf.back.set i c).length = _
      rw [List.length_set]; exact h.grid.backLen, h.grid.text⟩
  · rw [hbuf]; exact h.good
  · rw [hbuf]; exact h.torn
  · rw [hbuf, hsz]; exact h.size
  · rw [hbuf]; exact h.l32
  · rw [hbuf]; exact h.c32
  · rw [hbuf]; exact hbk

theorem mark_back {u : UEnv} {X : Nat → Prop} {idx : Nat} {s : Scr} {t : Term} (h : Base u X s t)
    (hlt : idx < s.buf.buffer.length) (c : Cell) (j : Nat) : (s.mark idx c).buf.back[j]? =
      if j = idx then some c else s.buf.back[j]? := by
  show (s.buf.back.set idx c)[j]? = _
  rw [List.getElem?_set]
  by_cases hj : j = idx
  · subst hj
    rw [if_pos rfl, if_pos rfl, if_pos (by rw [h.grid.backLen, ← h.grid.len]; exact hlt)]
  · rw [if_neg (Ne.symm hj), if_neg hj]

/-- Drawing another cell leaves them so. -/
theorem Shy.drawn {u : UEnv} {X : Nat → Prop} {idx : Nat} {s s' : Scr} {t t' : Term} (hX : Shy u X s t)
    (h : Base u X s t) {c : Cell} (hb : s.buf.buffer[idx]? = some c) (hne : s.buf.back[idx]? ≠ some c)
    (a4 : t'.size = t.size) (a6 : ∀ q, t'.cell q = drawnCells u t.cell (posOf t.size idx) c q)
    (a9 : s'.buf = (s.mark idx c).buf) : Shy u X s' t' := by
  have hlt : idx < s.buf.buffer.length := (List.getElem?_eq_some_iff.mp hb).1
  have hfit : c.isWide u = true → idx % t.size.columns + 1 < t.size.columns := by
    intro hw; rw [h.size]; exact (h.torn idx c hb hw).1
  obtain ⟨ix1, ix2, ix3, ix4, ix5⟩ := drawn_ix (u := u) h.paired idx c hfit
  have hsb : s'.buf.buffer = s.buf.buffer := by rw [a9]; rfl
  intro j hj
  obtain ⟨q1, ⟨c', q2, q3, q4⟩, q5⟩ := hX j hj
  have hji : j ≠ idx := by
    rintro rfl
    rw [hb, Option.some.injEq] at q2
    subst q2
    exact hne q3
  refine ⟨by rw [hsb]; exact q1, ⟨c', by rw [hsb]; exact q2, ?_, q4⟩, ?_⟩
  · rw [a9, mark_back h hlt c, if_neg hji]
    exact q3
  · rw [a4, a6]
    by_cases h2 : c.isWide u = true ∧ j = idx + 1
    · obtain ⟨h2, rfl⟩ := h2
      exact Or.inl (ix2 h2)
    · rcases ix3 j hji (fun hw e => h2 ⟨hw, e⟩) with e | e
      · rw [e]; exact q5
      · exact Or.inr e

/-- A cell has been drawn. -/
theorem Sync.drawn {u : UEnv} (hu : SpaceOk u) {X : Nat → Prop}
    {idx n : Nat} {s s' : Scr} {t t' : Term} (h : Sync u X idx s t)
    (hlen : s.buf.buffer.length = idx + (n + 1)) {c : Cell}
    (hb : s.buf.buffer[idx]? = some c) (hne : s.buf.back[idx]? ≠ some c) (a3 : Lk s'.w t') (a4 : t'.size = t.size) (a5 : t'.Paired)
    (a6 : ∀ q, t'.cell q = drawnCells u t.cell (posOf t.size idx) c q)
    (a7 : s'.real = ⟨(posOf t.size idx).line, (posOf t.size idx).column + 1⟩)
    (a8 : t'.cur = t.advance (posOf t.size idx) (if c.isWide u then 2 else 1))
    (a9 : s'.buf = (s.mark idx c).buf) : Sync u X (idx + 1 + skipOf u c n) s' t' := by
  have hlt : idx < s.buf.buffer.length := by omega
  have hmem := List.mem_of_getElem? hb
  have hfit : c.isWide u = true → idx % t.size.columns + 1 < t.size.columns := by
    intro hw; rw [h.size]; exact (h.torn idx c hb hw).1
  obtain ⟨hl1, hl2⟩ := live_next hu h.torn hb hlen
  have hback := mark_back h.toBase hlt c
  obtain ⟨ix1, ix2, ix3, ix4, ix5⟩ := drawn_ix (u := u) h.paired idx c hfit
  have hsb : s'.buf.buffer = s.buf.buffer := by rw [a9]; rfl
  have hbase : Base u X s' t' := by
    refine base_mark h.toBase a9 a4 a5 a3 X fun j c' hj hne hx => ?_
    rw [hback] at hj
    rw [a6, a4]
    by_cases h1 : j = idx
    · rw [if_pos h1, Option.some.injEq] at hj
      subst hj; subst h1
      exact Or.inl ix1
    · rw [if_neg h1] at hj
      by_cases h2 : c.isWide u = true ∧ j = idx + 1
      · obtain ⟨h2, rfl⟩ := h2
        exact Or.inr (Or.inl (ix2 h2))
      · rcases ix3 j h1 (fun hw e => h2 ⟨hw, e⟩) with e | e
        · rw [e]; exact h.bk j c' hj hne hx
        · exact Or.inr (Or.inr e)
  refine { hbase with live := ?_, fresh := ?_, done := ?_, cur := ?_, alt := ?_ }
  · rw [hsb]; exact hl1
  · intro j c' hj hlj hx hbj hkj
    rw [hsb] at hlj hbj
    rw [a9, hback] at hkj
    have hj' : idx < j ∧ (c.isWide u = true → j ≠ idx + 1) := by
      refine ⟨by omega, fun hw e => ?_⟩
      have := (hl2 hw).1
      omega
    rw [if_neg (by omega)] at hkj
    have hf := h.fresh j c' (by omega) hlj hx hbj hkj
    rw [a6, a4, ix4 j hj'.1 hj'.2 hf.1]
    exact hf
  · intro j c' hj hlj hbj
    rw [hsb] at hlj hbj
    rw [a9, hback, a6, a4]
    by_cases h1 : j < idx
    · rw [if_neg (by omega), ix5 j h1 (fun hr => absurd hr (h.not_right hu hlt))]
      exact h.done j c' h1 hlj hbj
    · by_cases h2 : j = idx
      · subst h2
        rw [hb, Option.some.injEq] at hbj
        subst hbj
        rw [if_pos rfl]
        exact ⟨rfl, fun _ => ix1⟩
      · by_cases hw : c.isWide u = true
        · obtain ⟨e1, e2⟩ := hl2 hw
          have : j = idx + 1 := by omega
          subst this
          exact absurd hlj e2
        · unfold skipOf at hj
          rw [if_neg hw] at hj
          omega
  · refine Or.inl fun hinb => ?_
    rw [a7] at hinb ⊢
    rw [a4] at hinb
    by_cases hw : c.isWide u = true
    · right
      rw [a6, ← posOf_right (hfit hw)]
      exact ix2 hw
    · left
      rw [a8, if_neg hw]
      unfold Term.advance
      rw [if_pos hinb.2]
  · rcases h.alt with hX | ⟨ha, hnw⟩
    · exact Or.inl (hX.drawn h.toBase hb hne a4 a6 a9)
    · refine Or.inr ⟨allNarrow_drawn ha (hnw c hmem) a6, ?_⟩
      unfold NoWide
      rw [hsb]; exact hnw

theorem Sync.draw {u : UEnv} (hu : SpaceOk u) {env : WEnv} (hdb : DrawDB env) {X : Nat → Prop}
    {idx n : Nat} {s : Scr} {t : Term} (h : Sync u X idx s t)
    (hlen : s.buf.buffer.length = idx + (n + 1)) {c : Cell}
    (hb : s.buf.buffer[idx]? = some c) (hne : s.buf.back[idx]? ≠ some c) :
    (∀ s', (s.mark idx c).drawCell env (posOf s.buf.size idx) c = .ok s' → ∃ new t',
      s'.w.log = s.w.log ++ new ∧ t.play u new = some t' ∧
      Sync u X (idx + 1 + skipOf u c n) s' t' ∧ Kept s s' ∧
      (AllNarrow t → NoWide u s.buf → AllNarrow t') ∧ (Shy u X s t → Shy u X s' t') ∧ Unmarked u s s') ∧
    (∀ e s', (s.mark idx c).drawCell env (posOf s.buf.size idx) c = .err e s' → ∃ new t',
      s'.w.log = s.w.log ++ new ∧ t.play u new = some t' ∧
      Base u (fun j => X j ∨ j = idx) s' t' ∧ CurOk s' t' ∧ Kept s s' ∧
      (AllNarrow t → AllNarrow t')) := by
  have hlt : idx < s.buf.buffer.length := by omega
  have hmem := List.mem_of_getElem? hb
  have hin : InBounds (posOf t.size idx) t.size := by
    rw [h.size]; exact (inBounds_posOf h.grid.size).mpr (by rw [← h.grid.len]; exact hlt)
  have hfit : c.isWide u = true → idx % t.size.columns + 1 < t.size.columns := by
    intro hw; rw [h.size]; exact (h.torn idx c hb hw).1
  have hstep := drawCell_step u hdb (s := s.mark idx c) (t := t) (p := posOf t.size idx) (c := c) h.lk hin
    (by rw [h.size]; exact h.l32) (by rw [h.size]; exact h.c32) (h.good c hmem) hfit h.paired
    (h.cur_at hu hlt) (by rw [h.size]; exact h.grid.size.2.2.2)
  rw [← h.size]
  have hback := mark_back h.toBase hlt c
  constructor
  · intro s' es
    obtain ⟨new, t', a1, a2, a3, a4, a5, a6, a7, a8, a9, a10⟩ := hstep.1 s' es
    exact ⟨new, t', a1, a2, h.drawn hu hlen hb hne a3 a4 a5 a6 a7 a8 a9, ⟨by rw [a9]; rfl, a10⟩,
      fun ha hnw => allNarrow_drawn ha (hnw c hmem) a6, fun hX => hX.drawn h.toBase hb hne a4 a6 a9,
      unmarked_mark h.live a9⟩
  · intro e s' es
    obtain ⟨new, t', a1, a2, a3, a4, a5, a6, a7, a8, a9, a10⟩ := hstep.2 e s' es
    refine ⟨new, t', a1, a2, ?_, ?_, ⟨by rw [a9]; rfl, a10⟩, ?_⟩
    · refine base_mark h.toBase a9 a4 a5 a3 _ fun j c' hj hne hx => ?_
      rw [hback, if_neg (fun e => hx (Or.inr e))] at hj
      rw [a6, a4]
      exact h.bk j c' hj hne (fun e => hx (Or.inl e))
    · intro _
      left
      rw [a8, a7]
    · intro ha q
      rw [a6]; exact ha q

theorem drawLoop_sync {u : UEnv} (hu : SpaceOk u) {env : WEnv} (hdb : DrawDB env) {X : Nat → Prop} :
    ∀ (m n f idx : Nat) (s : Scr) (t : Term), n ≤ m → n < f →
      s.buf.buffer.length = idx + n → Sync u X idx s t →
    (∀ s', s.drawLoop u env f (idx, n) = .ok s' → ∃ new t',
      s'.w.log = s.w.log ++ new ∧ t.play u new = some t' ∧
      Sync u X (idx + n) s' t' ∧ Kept s s' ∧ (AllNarrow t → NoWide u s.buf → AllNarrow t') ∧
      (Shy u X s t → Shy u X s' t') ∧ Unmarked u s s') ∧
    (∀ e s', s.drawLoop u env f (idx, n) = .err e s' → ∃ i new t',
      s'.w.log = s.w.log ++ new ∧ t.play u new = some t' ∧
      Base u (fun j => X j ∨ j = i) s' t' ∧ CurOk s' t' ∧ Kept s s' ∧
      (AllNarrow t → NoWide u s.buf → AllNarrow t')) := by
  intro m
  induction m with
  | zero =>
    intro n f idx s t hm hf hlen h
    obtain rfl : n = 0 := by omega
    obtain ⟨f, rfl⟩ : ∃ g, f = g + 1 := ⟨f - 1, by omega⟩
    rw [drawLoop_done]
    constructor
    · intro s' e; cases e
      exact ⟨[], t, by simp, rfl, h, Kept.refl _, fun a _ => a, id, unmarked_same rfl⟩
    · intro e s' e'; cases e'
  | succ m ih =>
    intro n f idx s t hm hf hlen h
    obtain ⟨f, rfl⟩ : ∃ g, f = g + 1 := ⟨f - 1, by omega⟩
    cases n with
    | zero =>
      rw [drawLoop_done]
      constructor
      · intro s' e; cases e
        exact ⟨[], t, by simp, rfl, h, Kept.refl _, fun a _ => a, id, unmarked_same rfl⟩
      · intro e s' e'; cases e'
    | succ n =>
      have hlt : idx < s.buf.buffer.length := by omega
      have hb : s.buf.buffer[idx]? = some s.buf.buffer[idx] := List.getElem?_eq_getElem hlt
      have hlt' : idx < s.buf.back.length := by rw [h.grid.backLen, ← h.grid.len]; exact hlt
      have hk : s.buf.back[idx]? = some s.buf.back[idx] := List.getElem?_eq_getElem hlt'
      generalize s.buf.buffer[idx] = c at hb
      generalize s.buf.back[idx] = old at hk
      have hne : c.text ≠ [] := h.grid.text c (List.mem_of_getElem? hb)
      have hsk : skipOf u c n ≤ n := by unfold skipOf; split <;> omega
      have hidx : idx + 1 + skipOf u c n + (n - skipOf u c n) = idx + (n + 1) := by omega
      by_cases hco : c = old
      · subst hco
        rw [drawLoop_same hb hne hk]
        have := ih (n - skipOf u c n) (f + 1) (idx + 1 + skipOf u c n) s t (by omega) (by omega)
          (by omega) (h.skip hu hlen hb hk)
        rw [hidx] at this
        exact this
      · rw [drawLoop_draw hb hne hk hco (by have := h.grid.size.2.1; omega)]
        obtain ⟨d1, d2⟩ := h.draw hu hdb hlen hb
          (fun e => hco (Option.some.inj (e.symm.trans hk)))
        cases ed : (s.mark idx c).drawCell env (posOf s.buf.size idx) c with
        | stop x =>
          constructor <;> intros <;> contradiction
        | err e1 s1 =>
          rw [andThen_err]
          obtain ⟨new, t', b1, b2, b3, b4, b5, b6⟩ := d2 e1 s1 ed
          constructor
          · intro s' e; cases e
          · intro e s' e'
            cases e'
            exact ⟨idx, new, t', b1, b2, b3, b4, b5, fun a _ => b6 a⟩
        | ok s1 =>
          rw [andThen_ok]
          obtain ⟨new, t', b1, b2, b3, b4, b5, b6, b7⟩ := d1 s1 ed
          have hbe : s1.buf.buffer = s.buf.buffer := by rw [b4.buf]
          obtain ⟨i1, i2⟩ := ih (n - skipOf u c n) f (idx + 1 + skipOf u c n) s1 t' (by omega)
            (by omega) (by rw [hbe]; omega) b3
          rw [hidx] at i1
          have hnw : NoWide u s.buf → NoWide u s1.buf := by
            unfold NoWide; rw [hbe]; exact id
          constructor
          · intro s' e
            obtain ⟨new', t'', c1, c2, c3, c4, c5, c6, c7⟩ := i1 s' e
            refine ⟨new ++ new', t'', ?_, ?_, c3, b4.trans c4, fun a b => c5 (b5 a b) (hnw b),
              fun a => c6 (b6 a), b7.trans c7 hbe⟩
            · rw [c1, b1, List.append_assoc]
            · rw [play_append, b2, Option.bind_some, c2]
          · intro e s' e'
            obtain ⟨i, new', t'', c1, c2, c3, c4, c5, c6⟩ := i2 e s' e'
            refine ⟨i, new ++ new', t'', ?_, ?_, c3, c4, b4.trans c5,
              fun a b => c6 (b5 a b) (hnw b)⟩
            · rw [c1, b1, List.append_assoc]
            · rw [play_append, b2, Option.bind_some, c2]

/-! ## The whole of `refresh` -/

theorem target_in {b : Buf} (h : GoodSize b.size) : InBounds (target b) b.size := by
  unfold target
  split
  · assumption
  · exact ⟨by have := h.1; dsimp only; omega, by have := h.2.1; dsimp only; omega⟩

theorem placeCursor_eq (env : WEnv) (s : Scr) (h : GoodSize s.buf.size) :
    s.placeCursor env = s.moveCursor env (target s.buf) := by
  unfold Scr.placeCursor target
  have h1 : s.buf.cursor.isOutOfBounds s.buf.size = true ↔ ¬ InBounds s.buf.cursor s.buf.size := by
    unfold Cursor.isOutOfBounds InBounds
    simp only [Bool.or_eq_true, decide_eq_true_eq]
    omega
  have h2 : Cursor.last s.buf.size = some ⟨s.buf.size.lines - 1, s.buf.size.columns - 1⟩ := by
    unfold Cursor.last usub
    have := h.1; have := h.2.1
    rw [if_pos (by omega), if_pos (by omega)]
    rfl
  by_cases hin : InBounds s.buf.cursor s.buf.size
  · rw [if_neg (fun e => h1.mp e hin), if_pos hin]
  · rw [if_pos (h1.mpr hin), if_neg hin, h2]

theorem Base.keep {u : UEnv} {X : Nat → Prop} {s s' : Scr} {t t' : Term} (h : Base u X s t)
    (hb : s'.buf = s.buf) (hl : Lk s'.w t') (hsz : t'.size = t.size) (hc : t'.cell = t.cell) :
    Base u X s' t' := by
  refine ⟨by rw [hb]; exact h.grid, by rw [hb]; exact h.good, by rw [hb]; exact h.torn,
    by rw [hb, hsz]; exact h.size, by rw [hb]; exact h.l32, by rw [hb]; exact h.c32, ?_, hl, ?_⟩
  · have := h.paired
    unfold Term.Paired at this ⊢
    rw [hc, hsz]; exact this
  · rw [hb, hsz, hc]; exact h.bk

theorem Base.mono {u : UEnv} {X Y : Nat → Prop} {s : Scr} {t : Term} (h : Base u X s t)
    (hxy : ∀ j, X j → Y j) : Base u Y s t :=
  { h with bk := fun j c h1 h2 h3 => h.bk j c h1 h2 (fun hx => h3 (hxy j hx)) }

/-- What holds between the calls on a screen, except for the cells in `X`. -/
structure Held (u : UEnv) (X : Nat → Prop) (s : Scr) (t : Term) : Prop extends Base u X s t where
  cur : s.clear = false → CurOk s t
  inval : s.clear = true → ∀ c ∈ s.buf.back, c.text = []

/-- No cell is about to be uncovered whose record of the last drawing equals its new content. -/
def NoStale (u : UEnv) (X : Nat → Prop) (s : Scr) (t : Term) : Prop :=
  s.clear = false → ∀ j c, Live u s.buf.buffer j → ¬ X j → s.buf.buffer[j]? = some c →
    s.buf.back[j]? = some c →
    t.cell (posOf t.size j) ≠ .right ∧ t.cell (posOf t.size j) ≠ .torn

/-- The first two steps of `refresh`. -/
theorem refresh_begin {u : UEnv} {env : WEnv} (hdb : DrawDB env) {X : Nat → Prop} {s : Scr}
    {t : Term} (h : Held u X s t) (hst : NoStale u X s t)
    (halt : Shy u X s t ∨ ((s.clear = true ∨ AllNarrow t) ∧ NoWide u s.buf)) :
    ∃ s1 new t1, (s.clearIfNeeded env >>? Scr.onW (clearAttributes env)) = .ok s1 ∧
      s1.w.log = s.w.log ++ new ∧ t.play u new = some t1 ∧ Sync u X 0 s1 t1 ∧
      s1.buf = s.buf ∧ s1.real = s.real ∧ s1.clear = false ∧
      ((s.clear = true ∨ AllNarrow t) → AllNarrow t1) ∧ (Shy u X s t → Shy u X s1 t1) := by
  -- clearing
  have hclear : ∃ s0 n0 t0, s.clearIfNeeded env = .ok s0 ∧ s0.w.log = s.w.log ++ n0 ∧
      t.play u n0 = some t0 ∧ Sync u X 0 s0 t0 ∧ s0.buf = s.buf ∧ s0.real = s.real ∧
      s0.clear = false ∧ ((s.clear = true ∨ AllNarrow t) → AllNarrow t0) ∧
      (Shy u X s t → Shy u X s0 t0) := by
    unfold Scr.clearIfNeeded
    cases hc : s.clear with
    | false =>
      refine ⟨s, [], t, rfl, by simp, rfl, ?_, rfl, rfl, hc, fun ha => by simpa using ha, id⟩
      refine { h.toBase with live := Or.inl rfl, fresh := ?_, done := ?_, cur := ?_, alt := ?_ }
      · intro j c _ hl hx hb hk
        exact hst hc j c hl hx hb hk
      · intro j c hj; omega
      · exact Or.inl (h.cur hc)
      · rw [hc] at halt
        simpa using halt
    | true =>
      obtain ⟨f, hf, hg⟩ := hdb.clear
      obtain ⟨w', e1, e2, e3⟩ := expand_step (env := env) (c := .clearScreen) (ps := []) (w := s.w)
        (hg [])
      have ereq : expandReq env .clearScreen [] s.w = .ok w' := by
        unfold expandReq; rw [hf]; exact e1
      rw [if_pos rfl, onW_ok ereq, andThen_ok]
      let t0 : Term := { t with cell := fun _ => .narrow [' '] (if t.bce then t.attrs else .plain),
                                cur := some ⟨0, 0⟩, last := none }
      have han : AllNarrow t0 := fun q => ⟨[' '], _, rfl⟩
      have hiv := h.inval hc
      have hno : Shy u X s t → ∀ j, ¬ X j := by
        intro hX j hj
        obtain ⟨-, ⟨c, q1, q2, -⟩, -⟩ := hX j hj
        exact h.grid.text c (List.mem_of_getElem? q1) (hiv c (List.mem_of_getElem? q2))
      refine ⟨_, _, t0, rfl, e3, by rw [play_one]; rfl, ?_, rfl, rfl, rfl, fun _ => han,
        fun hX => shy_none (hno hX) _ _⟩
      have hlk : Lk w' t0 := h.lk.push e2 e3 (by simp [IsAttrCap]) rfl
      refine { grid := h.grid, good := h.good, torn := h.torn, size := h.size, l32 := h.l32,
               c32 := h.c32, paired := ?_, lk := hlk, bk := ?_, live := Or.inl rfl, fresh := ?_,
               done := ?_, cur := ?_, alt := ?_ }
      · constructor
        · intro l c e; cases e
        · intro l c x d e; cases e
      · intro j c hj hne
        exact absurd (hiv c (List.mem_of_getElem? hj)) hne
      · intro j c _ _ _ _ hk
        constructor <;> (intro e; cases e)
      · intro j c hj; omega
      · refine Or.inr ⟨rfl, rfl, ?_⟩
        intro e
        have hpos : 0 < s.buf.size.lines * s.buf.size.columns :=
          Nat.mul_pos h.grid.size.1 h.grid.size.2.1
        have hk : s.buf.back[0]? = some (s.buf.back[0]'(by rw [h.grid.backLen]; exact hpos)) :=
          List.getElem?_eq_getElem _
        rw [hk] at e
        have h1 := h.grid.text _ (List.mem_of_getElem? e)
        exact h1 (hiv _ (List.mem_of_getElem? hk))
      · rcases halt with hX | ⟨-, hnw⟩
        · exact Or.inl (shy_none (hno hX) _ _)
        · exact Or.inr ⟨han, hnw⟩
  obtain ⟨s0, n0, t0, e0, l0, p0, y0, b0, r0, c0, a0, v0⟩ := hclear
  obtain ⟨w1, n1, e1, th1, l1, -, p1, k1⟩ := clear_step u hdb.attrs y0.lk
  refine ⟨{ s0 with w := w1 }, n0 ++ n1, { t0 with attrs := view plainTheme },
    by rw [e0, andThen_ok, onW_ok e1], ?_, ?_, ?_,
    b0, r0, c0, fun ha q => a0 ha q, fun hX => (v0 hX).keep rfl rfl rfl⟩
  · show w1.log = _
    rw [l1, l0, List.append_assoc]
  · rw [play_append, p0, Option.bind_some, p1]
  · have hb : Base u X { s0 with w := w1 } { t0 with attrs := view plainTheme } :=
      y0.toBase.keep rfl k1 rfl rfl
    exact { hb with live := y0.live, fresh := y0.fresh, done := y0.done, cur := y0.cur, alt := y0.alt }

theorem refresh_eq (u : UEnv) (env : WEnv) (s : Scr) : s.refresh u env =
    ((s.clearIfNeeded env >>? Scr.onW (clearAttributes env)) >>? fun s =>
      (s.drawLoop u env (s.buf.size.area + 1) (0, s.buf.size.area)) >>? fun s =>
      (s.onW (clearAttributes env) >>? Scr.placeCursor env) >>? Scr.onW flush) := by
  unfold Scr.refresh
  cases s.clearIfNeeded env with
  | err e s => rfl
  | stop x => rfl
  | ok s0 =>
    rw [andThen_ok]
    cases s0.onW (clearAttributes env) with
    | err e s => rfl
    | stop x => rfl
    | ok s1 =>
      rw [andThen_ok, andThen_ok]
      cases s1.drawLoop u env (s1.buf.size.area + 1) (0, s1.buf.size.area) with
      | err e s => rfl
      | stop x => rfl
      | ok s2 => rfl

/-- The terminal shows the buffer, except for the cells in `X`. -/
def Drawn' (u : UEnv) (X : Nat → Prop) (b : Buf) (t : Term) : Prop :=
  ∀ j c, Live u b.buffer j → ¬ X j → b.buffer[j]? = some c → t.cell (posOf t.size j) = pic u c

theorem refresh_end {u : UEnv} {env : WEnv} (hdb : DrawDB env) {X : Nat → Prop} {s : Scr}
    {t : Term} {n : Nat} (h : Sync u X n s t) :
    ∃ s1 new t1, (s.onW (clearAttributes env) >>? Scr.placeCursor env) = .ok s1 ∧
      s1.w.log = s.w.log ++ new ∧ t.play u new = some t1 ∧ Base u X s1 t1 ∧ s1.buf = s.buf ∧
      s1.clear = s.clear ∧ s1.real = target s.buf ∧ t1.cell = t.cell ∧ t1.size = t.size ∧
      s1.w.theme = plainTheme ∧
      (t.cell (target s.buf) ≠ .right → CurOk s t → t1.cur = some (target s.buf)) ∧
      (CurOk s t → CurOk s1 t1) := by
  obtain ⟨w1, n1, e1, th1, l1, -, p1, k1⟩ := clear_step u hdb.attrs h.lk
  rw [onW_ok e1, andThen_ok, placeCursor_eq env { s with w := w1 } h.grid.size]
  have htin := target_in h.grid.size
  have hbase : Base u X { s with w := w1 } { t with attrs := view plainTheme } :=
    h.toBase.keep rfl k1 rfl rfl
  unfold Scr.moveCursor
  by_cases hr : s.real = target s.buf
  · rw [if_neg (by simpa using hr)]
    refine ⟨_, n1, _, rfl, l1, p1, hbase, rfl, rfl, hr, rfl, rfl, th1, ?_, ?_⟩
    · intro hn hc
      rcases hc (by rw [hr, h.size]; exact htin) with e | e
      · rw [← hr]; exact e
      · exact absurd (hr ▸ e) hn
    · exact fun hc => hc
  · rw [if_pos hr]
    obtain ⟨w2, n2, e2, th2, l2, -, p2, k2⟩ := moveCursor_step u hdb k1 (p := target s.buf)
      (by show InBounds _ t.size; rw [h.size]; exact htin)
      (by show t.size.lines ≤ _; rw [h.size]; exact h.l32)
      (by show t.size.columns ≤ _; rw [h.size]; exact h.c32)
    rw [onW_ok (s := { s with w := w1 }) e2, andThen_ok]
    refine ⟨_, n1 ++ n2, _, rfl, ?_, ?_, hbase.keep rfl k2 rfl rfl, rfl, rfl, rfl, rfl, rfl, ?_,
      fun _ _ => rfl, fun _ _ => Or.inl rfl⟩
    · show w2.log = _
      rw [l2, l1, List.append_assoc]
    · rw [play_append, p1, Option.bind_some, p2]
    · show w2.theme = _
      rw [th2, th1]

/-- After a refresh. -/
structure After (u : UEnv) (X : Nat → Prop) (s : Scr) (t : Term) : Prop extends Held u X s t where
  noClear : s.clear = false
  shown : Drawn' u X s.buf t
  synced : ∀ j c, Live u s.buf.buffer j → s.buf.buffer[j]? = some c → s.buf.back[j]? = some c
  real : s.real = target s.buf
  atTarget : t.cell (target s.buf) ≠ .right → t.cur = some (target s.buf)
  plain : s.w.theme = plainTheme

theorem refresh_sync_full {u : UEnv} (hu : SpaceOk u) {env : WEnv} (hdb : DrawDB env) {X : Nat → Prop}
    {s : Scr} {t : Term} (h : Held u X s t) (hst : NoStale u X s t)
    (halt : Shy u X s t ∨ ((s.clear = true ∨ AllNarrow t) ∧ NoWide u s.buf)) :
    (∀ s', s.refresh u env = .ok s' → ∃ new t', s'.w.log = s.w.log ++ new ∧
      t.play u new = some t' ∧ After u X s' t' ∧ s'.buf = { s.buf with back := s'.buf.back } ∧
      ((s.clear = true ∨ AllNarrow t) → NoWide u s.buf → AllNarrow t') ∧
      (Shy u X s t → Shy u X s' t') ∧ Unmarked u s s') ∧
    (∀ e s', s.refresh u env = .err e s' → ∃ i new t', s'.w.log = s.w.log ++ new ∧
      t.play u new = some t' ∧ Held u (fun j => X j ∨ j = i) s' t' ∧ s'.clear = false ∧
      s'.buf = { s.buf with back := s'.buf.back } ∧
      ((s.clear = true ∨ AllNarrow t) → NoWide u s.buf → AllNarrow t')) := by
  obtain ⟨s1, n1, t1, e1, l1, p1, y1, b1, r1, c1, a1, v1⟩ := refresh_begin hdb h hst halt
  have hlen : s1.buf.buffer.length = 0 + s1.buf.size.area := by
    rw [Nat.zero_add]; exact y1.grid.len
  have hpos : 0 < s1.buf.size.area := Nat.mul_pos y1.grid.size.1 y1.grid.size.2.1
  have hloop := drawLoop_sync hu hdb (X := X) s1.buf.size.area s1.buf.size.area
    (s1.buf.size.area + 1) 0 s1 t1 (Nat.le_refl _) (Nat.lt_succ_self _) hlen y1
  rw [refresh_eq, e1, andThen_ok]
  have hnw : NoWide u s.buf → NoWide u s1.buf := by rw [b1]; exact id
  cases e2 : s1.drawLoop u env (s1.buf.size.area + 1) (0, s1.buf.size.area) with
  | stop x => rw [andThen_stop]; constructor <;> intros <;> contradiction
  | err e s2 =>
    rw [andThen_err]
    obtain ⟨i, n2, t2, l2, p2, y2, u2, k2, a2⟩ := hloop.2 e s2 e2
    constructor
    · intro s' e'; cases e'
    · intro e' s' ee
      cases ee
      refine ⟨i, n1 ++ n2, t2, by rw [l2, l1, List.append_assoc], ?_,
        { y2 with cur := fun _ => u2, inval := ?_ }, by rw [k2.clear, c1], by rw [k2.buf, b1],
        fun a b => a2 (a1 a) (hnw b)⟩
      · rw [play_append, p1, Option.bind_some, p2]
      · rw [k2.clear, c1]; intro e'; cases e'
  | ok s2 =>
    obtain ⟨n2, t2, l2, p2, y2, k2, a2, v2, w2⟩ := hloop.1 s2 e2
    rw [Nat.zero_add] at y2
    have hcur : CurOk s2 t2 := by
      rcases y2.cur with hc | ⟨h0, -⟩
      · exact hc
      · omega
    obtain ⟨s3, n3, t3, e3, l3, p3, y3, b3, c3, r3, cc3, z3, th3, at3, cu3⟩ := refresh_end hdb y2
    rw [andThen_ok, e3, andThen_ok]
    have hclear : s3.clear = false := by rw [c3, k2.clear, c1]
    have hbuf : s3.buf = { s.buf with back := s3.buf.back } := by rw [b3, k2.buf, b1]
    have hplay : t.play u (n1 ++ n2 ++ n3) = some t3 := by
      rw [play_append, play_append, p1, Option.bind_some, p2, Option.bind_some, p3]
    have hlog : s3.w.log = s.w.log ++ (n1 ++ n2 ++ n3) := by
      rw [l3, l2, l1]; simp only [List.append_assoc]
    have hheld : Held u X s3 t3 :=
      { y3 with cur := fun _ => cu3 hcur, inval := by rw [hclear]; intro e; cases e }
    have han : (s.clear = true ∨ AllNarrow t) → NoWide u s.buf → AllNarrow t3 := by
      intro a b q
      rw [cc3]
      exact a2 (a1 a) (hnw b) q
    have hlt : ∀ j c, s3.buf.buffer[j]? = some c → j < s1.buf.size.area := by
      intro j c hj
      have := (List.getElem?_eq_some_iff.mp hj).1
      rw [b3, k2.buf] at this
      dsimp only at this
      omega
    have hafter : After u X s3 t3 := by
      refine { hheld with noClear := hclear, shown := ?_, synced := ?_, real := ?_, atTarget := ?_, plain := th3 }
      · intro j c hl hx hj
        rw [cc3, z3]
        have hjl := hlt j c hj
        rw [b3] at hl hj
        exact (y2.done j c hjl hl hj).2 hx
      · intro j c hl hj
        have hjl := hlt j c hj
        rw [b3] at hl hj ⊢
        exact (y2.done j c hjl hl hj).1
      · rw [r3, b3]
      · intro hn
        rw [b3, cc3] at hn
        rw [b3]
        exact at3 hn hcur
    have hstill : Unmarked u s s3 := by
      intro j hj
      rw [b3, w2 j (by rw [b1]; exact hj), b1]
    obtain ⟨fo, fe⟩ := flush_same (w := s3.w)
    rw [onW_def]
    cases e4 : flush s3.w with
    | stop x => dsimp only; constructor <;> intros <;> contradiction
    | ok w4 =>
      dsimp only
      obtain ⟨g1, g2⟩ := fo w4 e4
      constructor
      · intro s' ee
        cases ee
        have hlk : Lk w4 t3 := ⟨by rw [g1, g2]; exact hafter.lk.dev, by rw [g2]; exact hafter.lk.term⟩
        have hb : Base u X { s3 with w := w4 } t3 := hafter.toBase.keep rfl hlk rfl rfl
        exact ⟨n1 ++ n2 ++ n3, t3, by rw [← hlog]; exact g1, hplay,
          { hb with cur := hafter.cur, inval := hafter.inval, noClear := hclear,
                    shown := hafter.shown, synced := hafter.synced, real := hafter.real,
                    atTarget := hafter.atTarget, plain := g2.trans th3 }, hbuf, han,
          fun hX => (v2 (v1 hX)).keep b3 z3 cc3, hstill⟩
      · intro e s' ee; cases ee
    | err e w4 =>
      dsimp only
      obtain ⟨g1, g2⟩ := fe e w4 e4
      constructor
      · intro s' ee; cases ee
      · intro e' s' ee
        cases ee
        have hlk : Lk w4 t3 := ⟨by rw [g1, g2]; exact hafter.lk.dev, by rw [g2]; exact hafter.lk.term⟩
        have hb : Base u (fun j => X j ∨ j = 0) { s3 with w := w4 } t3 :=
          (hafter.toBase.keep (s' := { s3 with w := w4 }) rfl hlk rfl rfl).mono fun j hx => Or.inl hx
        exact ⟨0, n1 ++ n2 ++ n3, t3, by rw [← hlog]; exact g1, hplay,
          { hb with cur := hafter.cur, inval := hafter.inval }, hclear, hbuf, han⟩

theorem refresh_sync {u : UEnv} (hu : SpaceOk u) {env : WEnv} (hdb : DrawDB env) {X : Nat → Prop}
    {s : Scr} {t : Term} (h : Held u X s t) (hst : NoStale u X s t)
    (halt : (∀ j, ¬ X j) ∨ ((s.clear = true ∨ AllNarrow t) ∧ NoWide u s.buf)) :
    (∀ s', s.refresh u env = .ok s' → ∃ new t', s'.w.log = s.w.log ++ new ∧
      t.play u new = some t' ∧ After u X s' t' ∧ s'.buf = { s.buf with back := s'.buf.back } ∧
      ((s.clear = true ∨ AllNarrow t) → NoWide u s.buf → AllNarrow t')) ∧
    (∀ e s', s.refresh u env = .err e s' → ∃ i new t', s'.w.log = s.w.log ++ new ∧
      t.play u new = some t' ∧ Held u (fun j => X j ∨ j = i) s' t' ∧ s'.clear = false ∧
      s'.buf = { s.buf with back := s'.buf.back } ∧
      ((s.clear = true ∨ AllNarrow t) → NoWide u s.buf → AllNarrow t')) := by
  obtain ⟨h1, h2⟩ := refresh_sync_full hu hdb h hst (halt.imp (fun hX => shy_none hX s t) id)
  refine ⟨fun s' e => ?_, h2⟩
  obtain ⟨new, t', q1, q2, q3, q4, q5, -⟩ := h1 s' e
  exact ⟨new, t', q1, q2, q3, q4, q5⟩

end Mortal
