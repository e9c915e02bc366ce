import Verif.Lemmas.Direct
import Verif.Props.WinErase
import Verif.Lemmas.WinShow

/-! # Windows consoles that show a page -/

namespace Mortal
open Spec

variable {A B : Type} {u : UEnv} {k : Nat}

/-! ## Grids that agree inside the screen -/

/-- Two grids agree inside the screen; the second may know less about the cursor. -/
structure Spec.Term.Near (a b : Term A) : Prop where
  size : a.size = b.size
  cell : ∀ q, InBounds q b.size → a.cell q = b.cell q
  cur : ∀ c, b.cur = some c → a.cur = some c
  last : ∀ c, b.last = some c → a.last = some c
  attrs : a.attrs = b.attrs

theorem cut_same (t : Term A) (p : Cursor) : (t.cut p).cur = t.cur ∧ (t.cut p).last = t.last := by
  unfold Term.cut; split <;> exact ⟨rfl, rfl⟩

theorem Spec.Term.Near.set {a b : Term A} (h : a.Near b) (p : Cursor) (c : TCell A) :
    (a.set p c).Near (b.set p c) := by
  refine ⟨h.size, fun q hq => ?_, h.cur, h.last, h.attrs⟩
  rw [set_cell, set_cell, h.cell q hq]

theorem Spec.Term.Near.cut [DecidableEq A] {a b : Term A} (h : a.Near b) {p : Cursor}
    (hp : InBounds p b.size) : (a.cut p).Near (b.cut p) := by
  refine ⟨by rw [cut_size, cut_size, h.size], fun q hq => ?_, ?_, ?_,
    by rw [cut_attrs, cut_attrs, h.attrs]⟩
  · rw [cut_size] at hq
    rw [cut_cell, cut_cell, h.cell p hp, h.cell q hq]
  · rw [(cut_same a p).1, (cut_same b p).1]; exact h.cur
  · rw [(cut_same a p).2, (cut_same b p).2]; exact h.last

theorem Spec.Term.Near.goto {a b : Term A} (h : a.Near b) (p : Cursor) : (a.goto p).Near (b.goto p) :=
  ⟨h.size, h.cell, fun _ e => e, fun _ e => e, h.attrs⟩

theorem Spec.Term.Near.putChar [DecidableEq A] {a b b' : Term A} (h : a.Near b) (hs : b.Sound)
    {ch : Char} (e : b.putChar u ch = some b') : ∃ a', a.putChar u ch = some a' ∧ a'.Near b' := by
  unfold Term.putChar at e ⊢
  by_cases h1 : Control ch
  · rw [if_pos h1] at e; cases e
  rw [if_neg h1] at e ⊢
  by_cases h2 : u.w ch = 0
  · rw [if_pos h2] at e ⊢
    cases hl : b.last with
    | none => rw [hl] at e; cases e
    | some c =>
      rw [hl] at e
      rw [h.last c hl]
      dsimp only at e ⊢
      rw [h.cell c (hs.last c hl)]
      cases hc : b.cell c with
      | narrow x d => rw [hc] at e; cases e; exact ⟨_, rfl, h.set _ _⟩
      | left x d => rw [hc] at e; cases e; exact ⟨_, rfl, h.set _ _⟩
      | right => rw [hc] at e; cases e
      | torn => rw [hc] at e; cases e
  rw [if_neg h2] at e ⊢
  cases hc : b.cur with
  | none => rw [hc] at e; cases e
  | some p =>
    rw [hc] at e
    rw [h.cur p hc]
    dsimp only at e ⊢
    have hp := hs.cur p hc
    have hadv : ∀ n, a.advance p n = b.advance p n := by
      intro n; unfold Term.advance; rw [h.size]
    by_cases h3 : u.w ch = 1
    · rw [if_pos h3] at e ⊢
      cases e
      refine ⟨_, rfl, ?_⟩
      have hn := (h.cut hp).set p (.narrow [ch] b.attrs)
      rw [h.attrs]
      exact ⟨hn.size, hn.cell, fun c e => by rw [← e]; exact hadv 1, fun c e => e, hn.attrs⟩
    · rw [if_neg h3] at e ⊢
      by_cases h4 : u.w ch = 2 ∧ p.column + 1 < b.size.columns
      · rw [if_pos h4] at e
        rw [if_pos (by rw [h.size]; exact h4)]
        cases e
        refine ⟨_, rfl, ?_⟩
        have hn := (((h.cut hp).cut (p := ⟨p.line, p.column + 1⟩)
          (by rw [cut_size]; exact ⟨hp.1, h4.2⟩)).set p (.left [ch] b.attrs)).set
            ⟨p.line, p.column + 1⟩ .right
        rw [h.attrs]
        exact ⟨hn.size, hn.cell, fun c e => by rw [← e]; exact hadv 2, fun c e => e, hn.attrs⟩
      · rw [if_neg h4] at e; cases e

theorem Spec.Term.Near.newline {a b : Term A} (h : a.Near b) (crlf : Bool) (d d' : A) (p : Cursor)
    (hd : d = d') : (a.newline crlf d p).Near (b.newline crlf d' p) := by
  subst hd
  unfold Term.newline
  dsimp only
  by_cases hl : p.line + 1 < b.size.lines
  · rw [if_pos (by rw [h.size]; exact hl), if_pos hl]
    exact h.goto _
  · rw [if_neg (by rw [h.size]; exact hl), if_neg hl]
    refine ⟨h.size, fun q hq => ?_, fun _ e => e, fun _ e => e, h.attrs⟩
    dsimp only
    rw [h.size]
    by_cases hq' : q.line + 1 < b.size.lines
    · rw [if_pos hq', if_pos hq']; exact h.cell _ ⟨hq', hq.2⟩
    · rw [if_neg hq', if_neg hq']

/-! ## Looks -/

/-- The attribute words are right for the cells. -/
structure Tinted (t : WTerm) (g : Term Ink) (attr : Cursor → BitVec 16) : Prop where
  narrow : ∀ q x i, InBounds q g.size → g.cell q = .narrow x i → i.Looks t (attr q)
  wide : ∀ q x i, InBounds q g.size → g.cell q = .left x i → i.Looks t (attr q) ∧
    i.Looks t (attr ⟨q.line, q.column + 1⟩)

/-- The attribute words after a character. -/
def inked (u : UEnv) (ch : Char) (w : BitVec 16) (attr : Cursor → BitVec 16) (cur : Option Cursor)
    (q : Cursor) : BitVec 16 :=
  match cur with
  | none => attr q
  | some p => if u.w ch ≠ 0 ∧ q = p ∨ u.w ch = 2 ∧ q = ⟨p.line, p.column + 1⟩ then w else attr q

theorem tinted_putChar {t : WTerm} {g g' : Term Ink} {attr : Cursor → BitVec 16} {w : BitVec 16}
    (h : Tinted t g attr) (hs : g.Sound) (hw : g.attrs.Looks t w) {ch : Char}
    (e : g.putChar u ch = some g') {cur : Option Cursor} (hcur : ∀ c, g.cur = some c → cur = some c) :
    Tinted t g' (inked u ch w attr cur) := by
  have hs' := hs.putChar e
  have hz := (putChar_keeps e).2
  obtain ⟨p1, p2⟩ := hs'.paired
  unfold Term.putChar at e
  by_cases h1 : Control ch
  · rw [if_pos h1] at e; cases e
  rw [if_neg h1] at e
  by_cases h2 : u.w ch = 0
  · rw [if_pos h2] at e
    have hno : ∀ p q : Cursor, ¬ (u.w ch ≠ 0 ∧ q = p ∨ u.w ch = 2 ∧ q = ⟨p.line, p.column + 1⟩) := by
      rintro p q (x | x)
      · exact x.1 h2
      · rw [h2] at x; exact absurd x.1 (by decide)
    have hattr : inked u ch w attr cur = attr := by
      funext q
      cases cur with
      | none => rfl
      | some p => exact if_neg (hno p q)
    rw [hattr]
    cases hl : g.last with
    | none => rw [hl] at e; cases e
    | some c =>
      rw [hl] at e
      dsimp only at e
      cases hc : g.cell c with
      | narrow x d =>
        rw [hc] at e; cases e
        refine ⟨fun q y i hq ey => ?_, fun q y i hq ey => ?_⟩
        · rw [set_cell] at ey
          split at ey
          · rename_i hqc; cases ey; rw [hqc]; rw [hqc] at hq; exact h.narrow c x d hq hc
          · exact h.narrow q y i hq ey
        · rw [set_cell] at ey
          split at ey
          · cases ey
          · exact h.wide q y i hq ey
      | left x d =>
        rw [hc] at e; cases e
        refine ⟨fun q y i hq ey => ?_, fun q y i hq ey => ?_⟩
        · rw [set_cell] at ey
          split at ey
          · cases ey
          · exact h.narrow q y i hq ey
        · rw [set_cell] at ey
          split at ey
          · rename_i hqc; cases ey; rw [hqc]; rw [hqc] at hq; exact h.wide c x d hq hc
          · exact h.wide q y i hq ey
      | right => rw [hc] at e; cases e
      | torn => rw [hc] at e; cases e
  rw [if_neg h2] at e
  cases hc : g.cur with
  | none => rw [hc] at e; cases e
  | some p =>
    rw [hc] at e
    rw [hcur p hc]
    dsimp only at e
    have hat0 : inked u ch w attr (some p) = fun q => if u.w ch ≠ 0 ∧ q = p ∨ u.w ch = 2 ∧
        q = ⟨p.line, p.column + 1⟩ then w else attr q := rfl
    rw [hat0]
    by_cases h3 : u.w ch = 1
    · rw [if_pos h3] at e
      cases e
      have hat : ∀ q : Cursor, (if u.w ch ≠ 0 ∧ q = p ∨ u.w ch = 2 ∧ q = ⟨p.line, p.column + 1⟩ then w
          else attr q) = if q = p then w else attr q := by
        intro q
        by_cases hq : q = p
        · rw [if_pos (.inl ⟨h2, hq⟩), if_pos hq]
        · rw [if_neg hq, if_neg]
          rintro (x | x)
          · exact hq x.2
          · rw [h3] at x; exact absurd x.1 (by decide)
      simp only [hat]
      have hz : (g.cut p).size = g.size := cut_size g p
      refine ⟨fun q y i hq ey => ?_, fun q y i hq ey => ?_⟩
      · have hq : InBounds q (g.cut p).size := hq
        rw [hz] at hq
        have ey := (narrow_cells g p (.narrow [ch] g.attrs) q).symm.trans ey
        unfold narrowCells at ey
        split at ey
        · rename_i hqp; cases ey; rw [if_pos hqp]; exact hw
        · rename_i hqp
          rw [if_neg hqp]
          split at ey
          · cases ey
          split at ey
          · cases ey
          exact h.narrow q y i hq ey
      · have hq : InBounds q (g.cut p).size := hq
        rw [hz] at hq
        have er := (p2 q.line q.column y i ey).2.2
        have ey := (narrow_cells g p (.narrow [ch] g.attrs) q).symm.trans ey
        have hne : (⟨q.line, q.column + 1⟩ : Cursor) ≠ p := by
          intro hp
          rw [hp] at er
          have er := (narrow_cells g p (.narrow [ch] g.attrs) p).symm.trans er
          unfold narrowCells at er
          rw [if_pos rfl] at er
          cases er
        rw [if_neg hne]
        unfold narrowCells at ey
        split at ey
        · cases ey
        rename_i hqp
        rw [if_neg hqp]
        split at ey
        · cases ey
        split at ey
        · cases ey
        exact h.wide q y i hq ey
    · rw [if_neg h3] at e
      by_cases h4 : u.w ch = 2 ∧ p.column + 1 < g.size.columns
      · rw [if_pos h4] at e
        cases e
        have hat : ∀ q : Cursor, (if u.w ch ≠ 0 ∧ q = p ∨ u.w ch = 2 ∧ q = ⟨p.line, p.column + 1⟩ then w
            else attr q) = if q = p ∨ q = ⟨p.line, p.column + 1⟩ then w else attr q := by
          intro q
          simp only [h4.1]
          simp
        simp only [hat]
        have hz : ((g.cut p).cut ⟨p.line, p.column + 1⟩).size = g.size := by rw [cut_size, cut_size]
        have hwc := wide_cells hs.paired p (.left [ch] g.attrs)
        refine ⟨fun q y i hq ey => ?_, fun q y i hq ey => ?_⟩
        · have hq : InBounds q ((g.cut p).cut ⟨p.line, p.column + 1⟩).size := hq
          rw [hz] at hq
          have ey := (hwc q).symm.trans ey
          unfold wideCells at ey
          split at ey
          · cases ey
          split at ey
          · cases ey
          rename_i n1 n2
          rw [if_neg (by rintro (x | x); exact n1 x; exact n2 x)]
          split at ey
          · cases ey
          split at ey
          · cases ey
          exact h.narrow q y i hq ey
        · have hq : InBounds q ((g.cut p).cut ⟨p.line, p.column + 1⟩).size := hq
          rw [hz] at hq
          have er := (p2 q.line q.column y i ey).2.2
          have ey := (hwc q).symm.trans ey
          have er := (hwc _).symm.trans er
          by_cases hqp : q = p
          · subst hqp
            rw [if_pos (.inl rfl), if_pos (.inr rfl)]
            unfold wideCells at ey
            rw [if_pos rfl] at ey
            cases ey
            exact ⟨hw, hw⟩
          · have hne : (⟨q.line, q.column + 1⟩ : Cursor) ≠ p := by
              intro hp
              rw [hp] at er
              unfold wideCells at er
              rw [if_pos rfl] at er
              cases er
            have hne2 : (⟨q.line, q.column + 1⟩ : Cursor) ≠ ⟨p.line, p.column + 1⟩ := by
              intro hp
              simp only [Cursor.mk.injEq] at hp
              exact hqp (cursor_ext.mpr ⟨hp.1, by omega⟩)
            unfold wideCells at ey
            rw [if_neg hqp] at ey
            split at ey
            · cases ey
            rename_i n2
            rw [if_neg (by rintro (x | x); exact hqp x; exact n2 x),
              if_neg (by rintro (x | x); exact hne x; exact hne2 x)]
            split at ey
            · cases ey
            split at ey
            · cases ey
            exact h.wide q y i hq ey
      · rw [if_neg h4] at e; cases e

theorem tinted_newline {t : WTerm} {g : Term Ink} {attr : Cursor → BitVec 16} {w : BitVec 16}
    (h : Tinted t g attr) (crlf : Bool) (i : Ink) (p : Cursor) :
    Tinted t (g.newline crlf i.rolled p) (if p.line + 1 < g.size.lines then attr else
        fun q => if q.line + 1 < g.size.lines then attr ⟨q.line + 1, q.column⟩ else w) := by
  unfold Term.newline
  dsimp only
  by_cases hl : p.line + 1 < g.size.lines
  · rw [if_pos hl, if_pos hl]
    exact ⟨h.narrow, h.wide⟩
  · rw [if_neg hl, if_neg hl]
    refine ⟨fun q x j hq e => ?_, fun q x j hq e => ?_⟩
    · dsimp only at e ⊢
      split at e
      · rename_i hq'; rw [if_pos hq']; exact h.narrow _ x j ⟨hq', hq.2⟩ e
      · cases e; trivial
    · dsimp only at e ⊢
      split at e
      · rename_i hq'; rw [if_pos hq', if_pos hq']; exact h.wide _ x j ⟨hq', hq.2⟩ e
      · cases e

/-! ## Text -/

/-- The buffer shows the page, and all that is needed to go on. -/
structure OnBuf (t : WTerm) (crlf : Bool) (th : Theme) (o : OutBuf) (p : Page) : Prop where
  near : o.glyph.Near (p.grid.recast (fun _ => ()) false)
  tint : Tinted t p.grid o.attr
  visible : o.shape.2 = p.visible
  pend : o.pend = []
  whole : o.Whole
  size : BufSize o.glyph.size
  proc : o.mode.getLsbD 0 = true
  ret : crlf = !o.mode.getLsbD 3
  word : o.word = themeWord t th
  ink : p.grid.attrs = { theme := th }
  sound : p.grid.Sound

variable {t : WTerm} {crlf : Bool} {th : Theme} {o : OutBuf} {p : Page}

theorem OnBuf.cur (h : OnBuf t crlf th o p) {c : Cursor} (hc : p.grid.cur = some c) :
    o.glyph.cur = some c ∧ InBounds c p.grid.size := ⟨h.near.cur c hc, h.sound.cur c hc⟩

theorem OnBuf.zsize (h : OnBuf t crlf th o p) : o.glyph.size = p.grid.size := h.near.size

theorem OnBuf.zcell (h : OnBuf t crlf th o p) {q : Cursor} (hq : InBounds q p.grid.size) :
    o.glyph.cell q = (p.grid.cell q).map fun _ => () := h.near.cell q hq

theorem themeWord_look (t : WTerm) (th : Theme) :
    lookOf (themeWord t th) = wantedLook t.defAttrs th.fg th.bg th.style := look_attrWord _ _ _ _

theorem OnBuf.looks (h : OnBuf t crlf th o p) : p.grid.attrs.Looks t o.word := by
  rw [h.ink, h.word]
  exact themeWord_look t th

theorem OnBuf.goto (h : OnBuf t crlf th o p) {c : Cursor} (hc : InBounds c p.grid.size) :
    OnBuf t crlf th (o.moved c) { p with grid := p.grid.goto c } where
  near := by
    have := h.near.goto c
    exact ⟨this.size, this.cell, this.cur, this.last, this.attrs⟩
  tint := ⟨h.tint.narrow, h.tint.wide⟩
  visible := h.visible
  pend := h.pend
  whole := h.whole
  size := h.size
  proc := h.proc
  ret := h.ret
  word := h.word
  ink := h.ink
  sound := h.sound.goto hc

theorem onBuf_typed (h : OnBuf t crlf th o p) {ch : Char} {g : Term Ink}
    (e : p.grid.typed u crlf Ink.rolled ch = some g) :
    ∃ o', o.putChar u ch = some o' ∧ OnBuf t crlf th o' { p with grid := g } := by
  have hk := typed_keeps e
  have hs := h.sound.typed e
  unfold Term.typed at e
  by_cases h1 : ch = '\r'
  · rw [if_pos h1, Option.map_eq_some_iff] at e
    obtain ⟨c, hc, rfl⟩ := e
    subst h1
    obtain ⟨hc', hin⟩ := h.cur hc
    refine ⟨o.moved ⟨c.line, 0⟩, ?_, h.goto ⟨hin.1, Nat.lt_of_le_of_lt (Nat.zero_le _) hin.2⟩⟩
    unfold OutBuf.putChar OutBuf.putControl
    rw [if_pos (by decide), if_neg (by rw [h.proc]; decide), if_pos rfl, hc']
    rfl
  rw [if_neg h1] at e
  by_cases h2 : ch = '\n'
  · rw [if_pos h2, Option.map_eq_some_iff] at e
    obtain ⟨c, hc, rfl⟩ := e
    subst h2
    obtain ⟨hc', hin⟩ := h.cur hc
    have hw := h.whole
    unfold OutBuf.Whole at hw
    have hz := h.zsize
    have hl : o.lineFeed c = some { o with
        glyph := o.glyph.newline crlf () c
        attr := if c.line + 1 < p.grid.size.lines then o.attr else
          fun q => if q.line + 1 < p.grid.size.lines then o.attr ⟨q.line + 1, q.column⟩ else o.word } := by
      unfold OutBuf.lineFeed
      rw [if_pos, h.ret, hz]
      rw [hw]
      have := hin.1
      rw [hz]
      refine ⟨by dsimp only; omega, by dsimp only; omega, ?_⟩
      dsimp only
      omega
    have hput : o.putChar u '\n' = o.lineFeed c := by
      unfold OutBuf.putChar OutBuf.putControl
      rw [if_pos (by decide), if_neg (by rw [h.proc]; decide), if_neg (by decide), if_pos rfl, hc']
      rfl
    refine ⟨_, hput.trans hl, ?_⟩
    · exact
        { near := by
            have := h.near.newline crlf () () c rfl
            have e1 := recast_newline (fun _ : Ink => ()) false crlf (Ink.rolled p.grid.attrs) p.grid c
            dsimp only
            rw [e1]
            exact this
          tint := tinted_newline h.tint crlf _ c
          visible := h.visible
          pend := h.pend
          whole := by
            unfold OutBuf.Whole
            have : (o.glyph.newline crlf () c).size = o.glyph.size := by
              unfold Term.newline; dsimp only; split <;> rfl
            dsimp only
            rw [this]; exact hw
          size := by
            have : (o.glyph.newline crlf () c).size = o.glyph.size := by
              unfold Term.newline; dsimp only; split <;> rfl
            dsimp only
            rw [this]; exact h.size
          proc := h.proc
          ret := h.ret
          word := h.word
          ink := by dsimp only; rw [hk.1]; exact h.ink
          sound := hs }
  rw [if_neg h2] at e
  have hctl : ¬ Control ch := by
    intro hc
    unfold Term.putChar at e
    rw [if_pos hc] at e
    cases e
  have e1 : (p.grid.recast (fun _ => ()) false).putChar u ch =
      some (g.recast (fun _ => ()) false) := by
    rw [recast_putChar, e]; rfl
  have hsr : (p.grid.recast (fun _ => ()) false).Sound := by
    refine ⟨h.sound.size, h.sound.cur, h.sound.last, ?_⟩
    obtain ⟨a, b⟩ := h.sound.paired
    refine ⟨fun l c hr => ?_, fun l c x d hr => ?_⟩
    · have hr : (p.grid.cell ⟨l, c⟩).map (fun _ => ()) = .right := hr
      cases hx : p.grid.cell ⟨l, c⟩ with
      | right =>
        obtain ⟨y1, y2, y3, y4⟩ := a l c hx
        refine ⟨y1, y2, (), ?_⟩
        show (p.grid.cell _).map _ = _
        rw [y4]; rfl
      | _ => rw [hx] at hr; cases hr
    · have hr : (p.grid.cell ⟨l, c⟩).map (fun _ => ()) = .left x d := hr
      cases hx : p.grid.cell ⟨l, c⟩ with
      | left y i =>
        obtain ⟨y1, y2, y3⟩ := b l c _ _ hx
        refine ⟨y1, y2, ?_⟩
        show (p.grid.cell _).map _ = _
        rw [y3]; rfl
      | _ => rw [hx] at hr; cases hr
  obtain ⟨a', ha, hn⟩ := h.near.putChar hsr e1
  have hz' : a'.size = o.glyph.size := (putChar_keeps ha).2
  refine ⟨{ o with glyph := a', attr := inked u ch o.word o.attr o.glyph.cur }, ?_, ?_⟩
  · unfold OutBuf.putChar
    rw [if_neg hctl, ha]
    rfl
  · exact
      { near := hn
        tint := tinted_putChar h.tint h.sound h.looks e fun c hc => h.near.cur c hc
        visible := h.visible
        pend := h.pend
        whole := by unfold OutBuf.Whole; dsimp only; rw [hz']; exact h.whole
        size := by dsimp only; rw [hz']; exact h.size
        proc := h.proc
        ret := h.ret
        word := h.word
        ink := by dsimp only; rw [hk.1]; exact h.ink
        sound := hs }

theorem onBuf_text : ∀ (s : List Char) {o : OutBuf} {p p' : Page}, OnBuf t crlf th o p →
    p.put u crlf s = some p' → ∃ o', o.putText u s = some o' ∧ OnBuf t crlf th o' p'
  | [], o, p, p', h, e => by
    unfold Page.put Term.typeText at e
    cases e
    exact ⟨o, rfl, h⟩
  | ch :: s, o, p, p', h, e => by
    unfold Page.put at e
    rw [Option.map_eq_some_iff] at e
    obtain ⟨g, hg, rfl⟩ := e
    simp only [Term.typeText, Option.bind_eq_some_iff] at hg
    obtain ⟨g1, h1, h2⟩ := hg
    obtain ⟨o1, a1, b1⟩ := onBuf_typed h h1
    obtain ⟨o2, a2, b2⟩ := onBuf_text s (p' := { p with grid := g }) b1
      (by unfold Page.put; dsimp only; rw [h2]; rfl)
    refine ⟨o2, ?_, b2⟩
    simp only [OutBuf.putText, a1, Option.bind_some, a2]

/-! ## Erasing -/

theorem onBuf_erase (h : OnBuf t crlf th o p) (R : Cursor → Prop) [DecidablePred R] {o' : OutBuf}
    (e : Erased R t.defAttrs o o') :
    OnBuf t crlf th o' { p with grid := p.grid.erase R p.grid.attrs.wiped } := by
  obtain ⟨e0, e1⟩ := e
  have hz := h.zsize
  have g1 : o'.glyph = { o.glyph with cell := o'.glyph.cell } := congrArg (fun x => x.glyph) e0
  have g2 : o'.word = o.word := by rw [e0]
  have g3 : o'.window = o.window := by rw [e0]
  have g4 : o'.mode = o.mode := by rw [e0]
  have g5 : o'.pend = o.pend := by rw [e0]
  have g6 : o'.shape = o.shape := by rw [e0]
  have hz' : o'.glyph.size = o.glyph.size := by rw [g1]
  have hcur : o'.glyph.cur = o.glyph.cur := by rw [g1]
  have hlast : o'.glyph.last = o.glyph.last := by rw [g1]
  obtain ⟨p1, p2⟩ := h.sound.paired
  have hpl : ∀ q x i, p.grid.cell q = .left x i → InBounds ⟨q.line, q.column + 1⟩ p.grid.size := by
    intro q x i hx
    obtain ⟨a, b, -⟩ := p2 q.line q.column x i hx
    exact ⟨a, b⟩
  have hpr : ∀ q, InBounds q p.grid.size → p.grid.cell q = .right →
      InBounds ⟨q.line, q.column - 1⟩ p.grid.size := by
    intro q hq hx
    exact ⟨hq.1, Nat.lt_of_le_of_lt (Nat.sub_le _ _) hq.2⟩
  have hcell : ∀ q, InBounds q p.grid.size →
      o'.glyph.cell q = ((p.grid.erase R p.grid.attrs.wiped).cell q).map fun _ => () := by
    intro q hq
    obtain ⟨y1, y2⟩ := e1 q (by rw [hz]; exact hq)
    have hc := h.zcell hq
    unfold Term.erase
    dsimp only
    by_cases hR : R q
    · rw [if_pos hR, (y1 hR).1]; rfl
    · rw [if_neg hR]
      obtain ⟨-, y3, y4⟩ := y2 hR
      cases hx : p.grid.cell q with
      | narrow x i =>
        rw [hx] at hc
        rw [y4, hc]
        rintro ⟨hh, ⟨x', z1, -⟩ | ⟨z1, -⟩, -⟩ <;> rw [hc] at z1 <;> cases z1
      | torn =>
        rw [hx] at hc
        rw [y4, hc]
        rintro ⟨hh, ⟨x', z1, -⟩ | ⟨z1, -⟩, -⟩ <;> rw [hc] at z1 <;> cases z1
      | left x i =>
        rw [hx] at hc
        dsimp only
        by_cases hR' : R ⟨q.line, q.column + 1⟩
        · rw [if_pos hR', y3 ⟨_, .inl ⟨x, hc, rfl⟩, .inl hR'⟩]; rfl
        · rw [if_neg hR', y4, hc]
          rintro ⟨hh, ⟨x', z1, rfl⟩ | ⟨z1, -⟩, z2⟩
          · rcases z2 with z2 | z2
            · exact hR' z2
            · rw [hz] at z2; exact z2 (hpl q x i hx)
          · rw [hc] at z1; cases z1
      | right =>
        rw [hx] at hc
        dsimp only
        by_cases hR' : R ⟨q.line, q.column - 1⟩
        · rw [if_pos hR', y3 ⟨_, .inr ⟨hc, rfl⟩, .inl hR'⟩]; rfl
        · rw [if_neg hR', y4, hc]
          rintro ⟨hh, ⟨x', z1, -⟩ | ⟨z1, rfl⟩, z2⟩
          · rw [hc] at z1; cases z1
          · rcases z2 with z2 | z2
            · exact hR' z2
            · rw [hz] at z2; exact z2 (hpr q hq hx)
  have hkeep : ∀ q, InBounds q p.grid.size → ¬ R q → o'.attr q = o.attr q := by
    intro q hq hR
    exact ((e1 q (by rw [hz]; exact hq)).2 hR).1
  refine
    { near := ⟨hz'.trans hz, hcell, ?_, ?_, rfl⟩
      tint := ⟨fun q x i hq hx => ?_, fun q x i hq hx => ?_⟩
      visible := by rw [g6]; exact h.visible
      pend := by rw [g5]; exact h.pend
      whole := by unfold OutBuf.Whole; rw [g3, hz']; exact h.whole
      size := by rw [hz']; exact h.size
      proc := by rw [g4]; exact h.proc
      ret := by rw [g4]; exact h.ret
      word := by rw [g2]; exact h.word
      ink := h.ink
      sound := h.sound.erase R _ }
  · rw [hcur]; exact h.near.cur
  · rw [hlast]; exact h.near.last
  · unfold Term.erase at hx
    dsimp only at hx
    have hq : InBounds q p.grid.size := hq
    split at hx
    · rename_i hR
      cases hx
      rw [((e1 q (by rw [hz]; exact hq)).1 hR).2]
      rfl
    · rename_i hR
      rw [hkeep q hq hR]
      cases hc : p.grid.cell q with
      | narrow y j => rw [hc] at hx; exact h.tint.narrow q x i hq (hc.trans hx)
      | torn => rw [hc] at hx; cases hx
      | left y j => rw [hc] at hx; dsimp only at hx; split at hx <;> cases hx
      | right => rw [hc] at hx; dsimp only at hx; split at hx <;> cases hx
  · unfold Term.erase at hx
    dsimp only at hx
    have hq : InBounds q p.grid.size := hq
    split at hx
    · cases hx
    · rename_i hR
      rw [hkeep q hq hR]
      cases hc : p.grid.cell q with
      | narrow y j => rw [hc] at hx; cases hx
      | torn => rw [hc] at hx; cases hx
      | right => rw [hc] at hx; dsimp only at hx; split at hx <;> cases hx
      | left y j =>
        rw [hc] at hx; dsimp only at hx
        split at hx
        · cases hx
        · rename_i hR'
          rw [hkeep _ (hpl q y j hc) hR']
          cases hx
          exact h.tint.wide q _ _ hq hc

theorem onBuf_wiped (h : OnBuf t crlf th o p) {r : Cursor} (h1 : (r.line : Int) = o.window.top)
    (h2 : (r.column : Int) = o.window.left) :
    OnBuf t crlf th ((OutBuf.wiped o t.defAttrs).moved r)
      { p with grid := (p.grid.erase (fun _ => True) p.grid.attrs.wiped).goto ⟨0, 0⟩ } := by
  have hw := h.whole
  unfold OutBuf.Whole at hw
  rw [hw] at h1 h2
  have hr : r = ⟨0, 0⟩ := by
    rw [cursor_ext]; dsimp only at h1 h2 ⊢; exact ⟨by omega, by omega⟩
  subst hr
  have hz : p.grid.size.lines = o.glyph.size.lines ∧ p.grid.size.columns = o.glyph.size.columns := by
    rw [h.zsize]; exact ⟨rfl, rfl⟩
  obtain ⟨b1, b2, b3, b4⟩ := h.size
  have e1 : Erased (fun _ => True) t.defAttrs o (OutBuf.wiped { o with glyph := { o.glyph with cur := o.glyph.cur } } t.defAttrs |> fun x =>
      { x with glyph := { x.glyph with cur := o.glyph.cur, last := o.glyph.last } }) :=
    ⟨rfl, fun q hq => ⟨fun _ => ⟨rfl, rfl⟩, fun hn => absurd trivial hn⟩⟩
  have := (onBuf_erase h (fun _ => True) e1).goto (c := ⟨0, 0⟩)
    ⟨by show 0 < p.grid.size.lines; omega, by show 0 < p.grid.size.columns; omega⟩
  exact this

/-! ## Attributes -/

theorem OnBuf.paint (h : OnBuf t crlf th o p) (th' : Theme) :
    OnBuf t crlf th' { o with word := themeWord t th' } (p.paint th') where
  near := ⟨h.near.size, h.near.cell, h.near.cur, h.near.last, h.near.attrs⟩
  tint := ⟨h.tint.narrow, h.tint.wide⟩
  visible := h.visible
  pend := h.pend
  whole := h.whole
  size := h.size
  proc := h.proc
  ret := h.ret
  word := rfl
  ink := rfl
  sound := h.sound.paint th'

/-- The call as one of C53. -/
def TOp.attr? : TOp → Option AttrOp
  | .fg c => some (.fg c)
  | .bg c => some (.bg c)
  | .addStyle s => some (.add s)
  | .removeStyle s => some (.remove s)
  | .style s => some (.style s)
  | .theme th => some (.theme th)
  | .clearAttributes => some .clear
  | _ => none

theorem attr?_run {op : TOp} {a : AttrOp} (h : TOp.attr? op = some a) (t : WTerm) :
    op.win t = a.run t := by
  cases op <;> simp only [TOp.attr?, Option.some.injEq, reduceCtorEq] at h <;> subst h <;> rfl

theorem attr?_wants {op : TOp} {a : AttrOp} (h : TOp.attr? op = some a) (th : Theme) :
    AttrOp.want th a = op.wants th := by
  refine makes_unique (want_makes th a) ?_
  cases op <;> simp only [TOp.attr?, Option.some.injEq, reduceCtorEq] at h <;> subst h
  case addStyle s =>
    refine ⟨rfl, rfl, fun i => ?_⟩
    simp only [TOp.wants, BitVec.getLsbD_or]
  case removeStyle s =>
    refine ⟨rfl, rfl, fun i => ?_⟩
    simp only [TOp.wants, BitVec.getLsbD_and, BitVec.getLsbD_not]
    by_cases hi : i < 8
    · cases th.style.getLsbD i <;> cases s.getLsbD i <;> simp [hi]
    · simp [BitVec.getLsbD_of_ge _ _ (Nat.le_of_not_lt hi)]
  case clearAttributes => exact ⟨rfl, rfl, fun i => by simp [TOp.wants, plainTheme]⟩
  all_goals first | exact ⟨rfl, rfl, rfl⟩ | rfl

theorem attr?_after {op : TOp} {a : AttrOp} (h : TOp.attr? op = some a) (p : Page) :
    p.after u crlf op = some (p.paint (op.wants p.grid.attrs.theme)) := by
  cases op <;> first | rfl | cases h

/-! ## A call -/

/-- The console after a call shows the page. -/
def Displays (u : UEnv) (k : Nat) (t : WTerm) (crlf : Bool) (s s' : WinSt) (c : Con) (o : OutBuf)
    (D : List WEv) (p' : Page) : Prop :=
  ∃ c' o', c.play u k D = some c' ∧ OnlyBuffer s.outH c c' o o' ∧ s'.outH = s.outH ∧
    OnBuf t crlf s'.theme o' p'

theorem displays_cat {s s' s1 : WinSt} {c c' : Con} {o o' : OutBuf} {D : List WEv} {p' : Page}
    (ho : c.outs s.outH = some o) (e : c.play u k D = some c') (hs : s1.outH = s.outH)
    (h : CAt (c.setOut s.outH o') s1 c' s') (hb : OnBuf t crlf s1.theme o' p') :
    Displays u k t crlf s s' c o D p' :=
  ⟨c', o', e, onlyBuffer_cat ho h, h.2.outH.trans hs, by rw [h.2.theme]; exact hb⟩

theorem cursorIn_eq {o : OutBuf} {q c : Cursor} (h : CursorIn o q) (hc : o.glyph.cur = some c) :
    q = c := (h.2 c hc).symm

theorem win_step (hsp : u.w ' ' = 1) {s s' : WinSt} {c : Con} {p' : Page} {op : TOp} {D : List WEv}
    (ho : c.outs s.outH = some o) (hb : OnBuf t crlf s.theme o p) (h : op.win t s = .ok () s')
    (hl : s'.log = s.log ++ D) (hr : c.Runs u k D) (hp : p.after u crlf op = some p') :
    Displays u k t crlf s s' c o D p' := by
  have hz := bufSize_small hb.size
  have hattr : ∀ a, TOp.attr? op = some a → Displays u k t crlf s s' c o D p' := by
    intro a ha
    rw [attr?_after ha, Option.some.injEq] at hp
    subst hp
    rw [attr?_run ha] at h
    obtain ⟨c', e, hc⟩ := (does_attrOp (u := u) (k := k) c s t a o ho hb.word).ok s c (.refl c s) () s' D
      h hl hr
    rw [attr?_wants ha] at hc
    refine displays_cat (s1 := { s with theme := op.wants s.theme }) ho e rfl hc ?_
    have : p.grid.attrs.theme = s.theme := by rw [hb.ink]
    rw [this]
    exact hb.paint _
  have hmove : ∀ c1 o1 r q, c.play u k D = some c1 → OnlyBuffer s.outH c c1 o o1 → CursorTo r o o1 →
      (∃ (Q : OutBuf → Prop) (E : IoErr → Con → WinSt → Prop), Does u k (CAt c s) (op.win t) (fun _ c' s' => ∃ o', Q o' ∧ CAt (c.setOut s.outH o') s c' s') E) →
      InBounds r p.grid.size → q = { p with grid := p.grid.goto r } →
      Displays u k t crlf s s' c o D q := by
    rintro c1 o1 r q e h1 h2 ⟨Q, E, hd⟩ hin rfl
    obtain ⟨c', e', o', -, hc⟩ := hd.ok s c (.refl c s) () s' D h hl hr
    refine ⟨c1, o1, e, h1, hc.2.outH, ?_⟩
    rw [hc.2.theme, h2]
    exact hb.goto hin
  have hrel : ∀ off, ∃ (Q : OutBuf → Prop) (E : IoErr → Con → WinSt → Prop), Does u k (CAt c s) (moveRel off)
      (fun _ c' s' => ∃ o', Q o' ∧ CAt (c.setOut s.outH o') s c' s') E := by
    intro off
    refine ⟨fun _ => True, _, Does.mono (does_moveRel c s o off ho hz) (fun _ _ h => h) ?_
      (fun _ _ _ h => h)⟩
    rintro _ c' s' ⟨-, r, -, -, -, -, h⟩
    exact ⟨_, trivial, h⟩
  cases op with
  | fg x => exact hattr _ rfl
  | bg x => exact hattr _ rfl
  | addStyle x => exact hattr _ rfl
  | removeStyle x => exact hattr _ rfl
  | style x => exact hattr _ rfl
  | theme x => exact hattr _ rfl
  | clearAttributes => exact hattr _ rfl
  | write x =>
    obtain ⟨o', e1, h1⟩ := onBuf_text x hb hp
    obtain ⟨c', e, hc⟩ := (does_writeStr (k := k) c s o o' x ho hb.pend e1).ok s c (.refl c s) () s' D
      h hl hr
    exact displays_cat ho e rfl hc h1
  | styled x text =>
    simp only [Page.after, Option.map_eq_some_iff] at hp
    obtain ⟨p1, hp1, rfl⟩ := hp
    obtain ⟨o2, e2, h2⟩ := onBuf_text text (hb.paint x) hp1
    have hd : Does u k (CAt c s) (winWriteStyled t x text)
        (fun _ => CAt (c.setOut s.outH { o2 with word := themeWord t plainTheme })
          { s with theme := plainTheme }) (fun _ _ _ => True) := by
      unfold winWriteStyled
      refine Does.bind (R := fun _ => CAt (c.setOut s.outH { o with word := themeWord t x })
        { s with theme := x }) (Does.mono (does_setAttributes c s t x o ho hb.word) (fun _ _ h => h)
        (fun _ _ _ h => h) (fun _ _ _ _ => trivial)) fun _ => ?_
      refine Does.bind (R := fun _ => CAt (c.setOut s.outH o2) { s with theme := x })
        (Does.mono (does_writeStr (c.setOut s.outH { o with word := themeWord t x }) { s with theme := x }
          { o with word := themeWord t x } o2 text (setOut_outs _ _ _) hb.pend e2) (fun _ _ h => h)
        (fun _ c' s' h => by rw [setOut_setOut] at h; exact h) (fun _ _ _ _ => trivial)) fun _ => ?_
      refine Does.mono (does_attrOp (c.setOut s.outH o2) { s with theme := x } t .clear o2
        (setOut_outs _ _ _) h2.word) (fun _ _ h => h) (fun _ c' s' h => ?_) (fun _ _ _ _ => trivial)
      rw [setOut_setOut] at h
      exact h
    obtain ⟨c', e, hc⟩ := hd.ok s c (.refl c s) () s' D h hl hr
    exact displays_cat (s1 := { s with theme := plainTheme }) ho e rfl hc (h2.paint _)
  | clearScreen =>
    cases hp
    have hw := hb.whole
    unfold OutBuf.Whole at hw
    obtain ⟨b1, b2, b3, b4⟩ := hb.size
    obtain ⟨c', e, r, h1, h2, hc⟩ := (does_clearScreen_full (k := k) hsp c s t o ho hz
      (by rw [hw]; refine ⟨?_, ?_, ?_, ?_, ?_, ?_⟩ <;> dsimp only <;> omega)
      (by unfold OutBuf.height; rw [hw]; dsimp only; omega)).ok s c (.refl c s) () s' D h hl hr
    exact displays_cat ho e rfl hc (onBuf_wiped hb h1 h2)
  | clearToLineEnd =>
    simp only [Page.after, Option.map_eq_some_iff] at hp
    obtain ⟨x, hx, rfl⟩ := hp
    obtain ⟨c', e, q, o', h1, h2, hc⟩ := (does_clearToLineEnd (k := k) hsp c s t o ho hz).ok s c
      (.refl c s) () s' D h hl hr
    have := cursorIn_eq h1 (hb.cur hx).1
    subst this
    exact displays_cat ho e rfl hc (onBuf_erase hb _ h2)
  | clearToScreenEnd =>
    simp only [Page.after, Option.map_eq_some_iff] at hp
    obtain ⟨x, hx, rfl⟩ := hp
    obtain ⟨c', e, q, o', h1, h2, hc⟩ := (does_clearToScreenEnd (k := k) hsp c s t o ho hz).ok s c
      (.refl c s) () s' D h hl hr
    have := cursorIn_eq h1 (hb.cur hx).1
    subst this
    exact displays_cat ho e rfl hc (onBuf_erase hb _ h2)
  | move d n =>
    have hone : ∃ c1 o1 x, c.play u k D = some c1 ∧ OnlyBuffer s.outH c c1 o o1 ∧ CursorIn o x ∧
        CursorTo (p.grid.shifted x d n) o o1 := by
      have hsz := hb.zsize
      cases d with
      | up =>
        obtain ⟨c1, o1, x, a1, a2, a3, -, a4⟩ := (C54_move_backward u k n s s' c o D ho hb.size hl hr).2 h
        exact ⟨c1, o1, x, a1, a2, a3, a4⟩
      | left =>
        obtain ⟨c1, o1, x, a1, a2, a3, -, a4⟩ := (C54_move_backward u k n s s' c o D ho hb.size hl hr).1 h
        exact ⟨c1, o1, x, a1, a2, a3, a4⟩
      | down =>
        obtain ⟨c1, o1, x, a1, a2, a3, a4⟩ := (C54_move_forward u k n s s' c o D ho hb.size hl hr).2 h
        rw [hsz] at a4
        exact ⟨c1, o1, x, a1, a2, a3, a4⟩
      | right =>
        obtain ⟨c1, o1, x, a1, a2, a3, a4⟩ := (C54_move_forward u k n s s' c o D ho hb.size hl hr).1 h
        rw [hsz] at a4
        exact ⟨c1, o1, x, a1, a2, a3, a4⟩
    obtain ⟨c1, o1, x, a1, a2, a3, a4⟩ := hone
    have hx : InBounds x p.grid.size := by rw [← hb.zsize]; exact a3.1
    have hdoes : ∃ (Q : OutBuf → Prop) (E : IoErr → Con → WinSt → Prop), Does u k (CAt c s) (TOp.win t (.move d n))
      (fun _ c' s' => ∃ o', Q o' ∧ CAt (c.setOut s.outH o') s c' s') E := by cases d <;> exact hrel _
    have hgo := hmove c1 o1 _ _ a1 a2 a4 hdoes (shifted_in hx d n) rfl
    simp only [Page.after] at hp
    by_cases hn : n = 0
    · rw [if_pos hn] at hp
      cases hp
      subst hn
      have h0 : p.grid.shifted x d 0 = x := by
        have := hx.1
        have := hx.2
        cases d <;> refine cursor_ext.2 ⟨?_, ?_⟩ <;> dsimp only [Term.shifted] <;> omega
      rw [h0] at hgo
      obtain ⟨c2, o2, f1, f2, f3, f4⟩ := hgo
      refine ⟨c2, o2, f1, f2, f3, ?_⟩
      exact
        { near := ⟨f4.near.size, f4.near.cell, fun y hy => (by
            have hy : p.grid.cur = some y := hy
            have := cursorIn_eq a3 (hb.cur hy).1
            subst this
            exact f4.near.cur x rfl), fun y hy => (by cases hy), f4.near.attrs⟩
          tint := ⟨f4.tint.narrow, f4.tint.wide⟩
          visible := f4.visible
          pend := f4.pend
          whole := f4.whole
          size := f4.size
          proc := f4.proc
          ret := f4.ret
          word := f4.word
          ink := f4.ink
          sound := ⟨hb.sound.size, hb.sound.cur, fun y hy => (by cases hy), hb.sound.paired⟩ }
    · rw [if_neg hn, Option.map_eq_some_iff] at hp
      obtain ⟨y, hy, rfl⟩ := hp
      have := cursorIn_eq a3 (hb.cur hy).1
      subst this
      exact hgo
  | firstColumn =>
    simp only [Page.after, Option.map_eq_some_iff] at hp
    obtain ⟨x, hx, rfl⟩ := hp
    obtain ⟨c', e, q, h1, hc⟩ := (does_firstColumn (u := u) (k := k) c s o ho hz).ok s c
      (.refl c s) () s' D h hl hr
    have := cursorIn_eq h1 (hb.cur hx).1
    subst this
    have hin := (hb.cur hx).2
    exact displays_cat ho e rfl hc (hb.goto ⟨hin.1, Nat.lt_of_le_of_lt (Nat.zero_le _) hin.2⟩)
  | moveTo x =>
    simp only [Page.after] at hp
    split at hp
    · rename_i hx
      cases hp
      obtain ⟨c', e, hc⟩ := (does_moveCursor (u := u) (k := k) c s x o ho hz
        (by rw [hb.zsize]; exact hx)).ok s c (.refl c s) () s' D h hl hr
      exact displays_cat ho e rfl hc (hb.goto hx)
    · cases hp
  | cursorMode m =>
    cases hp
    obtain ⟨c', e, o1, h1, hc⟩ := (does_cursorMode (u := u) (k := k) c s m).ok s c
      (.refl c s) () s' D h hl hr
    rw [ho] at h1; cases h1
    refine displays_cat ho e rfl hc ?_
    exact
      { near := hb.near
        tint := hb.tint
        visible := by cases m <;> rfl
        pend := hb.pend
        whole := hb.whole
        size := hb.size
        proc := hb.proc
        ret := hb.ret
        word := hb.word
        ink := hb.ink
        sound := hb.sound }
  | flush =>
    cases hp
    have e : s' = s := by cases h; rfl
    subst e
    have : D = [] := by simpa using hl
    subst this
    exact ⟨c, o, rfl, ⟨rfl, rfl, rfl, fun _ _ => rfl, ho, ho⟩, rfl, hb⟩
  | release =>
    cases hp
    have e : s' = s := by cases h; rfl
    subst e
    have : D = [] := by simpa using hl
    subst this
    exact ⟨c, o, rfl, ⟨rfl, rfl, rfl, fun _ _ => rfl, ho, ho⟩, rfl, hb⟩

theorem win_failed {s s' : WinSt} {c : Con} {op : TOp} {D : List WEv} {er : IoErr} (hop : op.IsCursor)
    (ho : c.outs s.outH = some o) (hb : OnBuf t crlf s.theme o p) (h : op.win t s = .err er s')
    (hl : s'.log = s.log ++ D) (hr : c.Runs u k D) : Displays u k t crlf s s' c o D (p.failed op) := by
  have hz := bufSize_small hb.size
  have hf : p.failed op = p := by cases op <;> first | rfl | exact hop.elim
  rw [hf]
  have key : ∃ Q, Does u k (CAt c s) (op.win t) Q (fun _ => CAt c s) := by
    cases op <;> first | exact hop.elim | skip
    case move d n => cases d <;> exact ⟨_, does_moveRel c s o _ ho hz⟩
    case firstColumn => exact ⟨_, does_firstColumn c s o ho hz⟩
    case moveTo x => exact ⟨_, does_moveAbs c s _⟩
    case cursorMode m => exact ⟨_, does_cursorMode c s m⟩
  obtain ⟨Q, hd⟩ := key
  obtain ⟨c', e, hc⟩ := hd.err s c (.refl c s) er s' D h hl hr
  rw [← setOut_self ho] at hc
  exact displays_cat ho e rfl hc hb

theorem grows_win (t : WTerm) (op : TOp) : Grows (op.win t) := by
  cases ha : TOp.attr? op with
  | some a => rw [attr?_run ha]; exact grows_attrOp t a
  | none =>
    cases op <;> first | (cases ha; done) | skip
    case write x => exact grows_writeStr x
    case styled x text =>
      exact Grows.bind (grows_setAttributes t x) fun _ => Grows.bind (grows_writeStr text) fun _ =>
        grows_attrOp t .clear
    case clearScreen => exact grows_clearScreen t
    case clearToLineEnd => show Grows (winClearToLineEnd t); unfold winClearToLineEnd clearArea; grows_tac
    case clearToScreenEnd =>
      show Grows (winClearToScreenEnd t); unfold winClearToScreenEnd clearArea; grows_tac
    case move d n =>
      have : ∀ off, Grows (moveRel off) := by intro off; unfold moveRel moveAbs; grows_tac
      cases d <;> exact this _
    case firstColumn => show Grows winFirstColumn; unfold winFirstColumn moveAbs; grows_tac
    case moveTo x => exact grows_moveAbs _
    case cursorMode m => show Grows (winCursorMode m); unfold winCursorMode; grows_tac
    case flush => exact Grows.pure _
    case release => exact Grows.pure _

theorem traceWin_grows (t : WTerm) : ∀ (ops : List TOp) (s s' : WinSt) (tr : List (TOp × Bool)),
    traceWin t ops s = some (tr, s') → ∃ D, s'.log = s.log ++ D := by
  intro ops
  induction ops with
  | nil =>
    intro s s' tr h
    simp only [traceWin, Option.some.injEq, Prod.mk.injEq] at h
    exact ⟨[], by rw [← h.2]; simp⟩
  | cons op ops ih =>
    intro s s' tr h
    simp only [traceWin] at h
    have hg := grows_win t op s
    cases ho : op.win t s with
    | stop x => rw [ho] at h; cases h
    | ok a s1 =>
      rw [ho] at h
      simp only [Option.map_eq_some_iff, Prod.mk.injEq] at h
      obtain ⟨⟨tr1, s2⟩, h1, -, rfl⟩ := h
      obtain ⟨D1, e1⟩ := hg.1 a s1 ho
      obtain ⟨D2, e2⟩ := ih _ _ _ h1
      exact ⟨D1 ++ D2, by rw [e2, e1, List.append_assoc]⟩
    | err x s1 =>
      rw [ho] at h
      simp only [Option.map_eq_some_iff, Prod.mk.injEq] at h
      obtain ⟨⟨tr1, s2⟩, h1, -, rfl⟩ := h
      obtain ⟨D1, e1⟩ := hg.2 x s1 ho
      obtain ⟨D2, e2⟩ := ih _ _ _ h1
      exact ⟨D1 ++ D2, by rw [e2, e1, List.append_assoc]⟩

end Mortal
