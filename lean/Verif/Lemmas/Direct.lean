import Verif.Spec.Direct
import Verif.Lemmas.Screen

/-! # Terminals that show a page -/

namespace Mortal
open Spec

variable {A B : Type} {u : UEnv}

/-- A terminal with other attributes. -/
def Spec.Term.recast (f : A → B) (b : Bool) (t : Term A) : Term B where
  size := t.size
  cell := fun q => (t.cell q).map f
  cur := t.cur
  last := t.last
  attrs := f t.attrs
  bce := b

variable (f : A → B) (b : Bool)

theorem recast_set (t : Term A) (p : Cursor) (c : TCell A) :
    (t.set p c).recast f b = (t.recast f b).set p (c.map f) := by
  unfold Term.set Term.recast
  simp only [Term.mk.injEq, true_and, and_true]
  funext q
  split <;> rfl

theorem recast_cut (t : Term A) (p : Cursor) : (t.cut p).recast f b = (t.recast f b).cut p := by
  have e : (t.recast f b).cell p = (t.cell p).map f := rfl
  unfold Term.cut
  rw [e]
  cases t.cell p with
  | narrow x d => rfl
  | left x d => exact recast_set f b _ _ _
  | right => exact recast_set f b _ _ _
  | torn => rfl

theorem recast_putChar (t : Term A) (ch : Char) :
    (t.recast f b).putChar u ch = (t.putChar u ch).map (Term.recast f b) := by
  unfold Term.putChar
  have hl : (t.recast f b).last = t.last := rfl
  have hc : (t.recast f b).cur = t.cur := rfl
  have hz : (t.recast f b).size = t.size := rfl
  have ha : (t.recast f b).attrs = f t.attrs := rfl
  rw [hl, hc, hz]
  by_cases h1 : Control ch
  · rw [if_pos h1, if_pos h1]; rfl
  rw [if_neg h1, if_neg h1]
  by_cases h2 : u.w ch = 0
  · rw [if_pos h2, if_pos h2]
    cases t.last with
    | none => rfl
    | some p =>
      have e : (t.recast f b).cell p = (t.cell p).map f := rfl
      dsimp only
      rw [e]
      cases t.cell p with
      | narrow x d => exact congrArg some (recast_set f b t p (.narrow (x ++ [ch]) d)).symm
      | left x d => exact congrArg some (recast_set f b t p (.left (x ++ [ch]) d)).symm
      | right => rfl
      | torn => rfl
  · rw [if_neg h2, if_neg h2]
    cases t.cur with
    | none => rfl
    | some p =>
      dsimp only
      by_cases h3 : u.w ch = 1
      · rw [if_pos h3, if_pos h3, ← recast_cut, ha]
        exact congrArg (fun g : Term B => some { g with cur := t.advance p 1, last := some p })
          (recast_set f b (t.cut p) p (.narrow [ch] t.attrs)).symm
      · rw [if_neg h3, if_neg h3]
        by_cases h4 : u.w ch = 2 ∧ p.column + 1 < t.size.columns
        · rw [if_pos h4, if_pos h4, ← recast_cut, ← recast_cut, ha]
          have e1 := recast_set f b ((t.cut p).cut ⟨p.line, p.column + 1⟩) p (.left [ch] t.attrs)
          have e2 := recast_set f b (((t.cut p).cut ⟨p.line, p.column + 1⟩).set p (.left [ch] t.attrs))
            ⟨p.line, p.column + 1⟩ .right
          rw [e1] at e2
          exact congrArg
            (fun g : Term B => some { g with cur := t.advance p 2, last := some p }) e2.symm
        · rw [if_neg h4, if_neg h4]; rfl

theorem recast_goto (t : Term A) (p : Cursor) : (t.goto p).recast f b = (t.recast f b).goto p := rfl

theorem recast_erase (R : Cursor → Prop) [DecidablePred R] (d : A) (t : Term A) :
    (t.erase R d).recast f b = (t.recast f b).erase R (f d) := by
  unfold Term.erase Term.recast
  simp only [Term.mk.injEq, true_and, and_true]
  funext q
  split
  · rfl
  · cases t.cell q with
    | narrow x d => rfl
    | torn => rfl
    | left x d =>
      dsimp only [TCell.map]
      by_cases h : R ⟨q.line, q.column + 1⟩
      · rw [if_pos h, if_pos h]
      · rw [if_neg h, if_neg h]
    | right =>
      dsimp only [TCell.map]
      by_cases h : R ⟨q.line, q.column - 1⟩
      · rw [if_pos h, if_pos h]
      · rw [if_neg h, if_neg h]

theorem recast_newline (crlf : Bool) (d : A) (t : Term A) (p : Cursor) :
    (t.newline crlf d p).recast f b = (t.recast f b).newline crlf (f d) p := by
  unfold Term.newline
  have hz : (t.recast f b).size = t.size := rfl
  rw [hz]
  dsimp only
  split
  · rfl
  · unfold Term.recast Term.goto
    simp only [Term.mk.injEq, true_and, and_true]
    funext q
    split <;> rfl

variable {f b}

theorem recast_typed (crlf : Bool) {fillA : A → A} {fillB : B → B} (t : Term A)
    (hf : f (fillA t.attrs) = fillB (f t.attrs)) (ch : Char) :
    (t.recast f b).typed u crlf fillB ch = (t.typed u crlf fillA ch).map (Term.recast f b) := by
  unfold Term.typed
  have hc : (t.recast f b).cur = t.cur := rfl
  have ha : (t.recast f b).attrs = f t.attrs := rfl
  rw [hc, ha]
  split
  · cases t.cur <;> rfl
  · split
    · cases t.cur with
      | none => rfl
      | some p => simp only [Option.map_some, recast_newline, hf]
    · exact recast_putChar f b t ch

theorem set_attrs (t : Term A) (p : Cursor) (c : TCell A) : (t.set p c).attrs = t.attrs := rfl

theorem putChar_keeps {t t' : Term A} {ch : Char} (h : t.putChar u ch = some t') :
    t'.attrs = t.attrs ∧ t'.size = t.size := by
  unfold Term.putChar at h
  split at h
  · cases h
  split at h
  · split at h
    · cases h
    · split at h
      · cases h; exact ⟨rfl, rfl⟩
      · cases h; exact ⟨rfl, rfl⟩
      · cases h
  · split at h
    · cases h
    · split at h
      · cases h; exact ⟨cut_attrs _ _, cut_size _ _⟩
      · split at h
        · cases h
          refine ⟨?_, ?_⟩
          · show ((t.cut _).cut _).attrs = _
            rw [cut_attrs, cut_attrs]
          · show ((t.cut _).cut _).size = _
            rw [cut_size, cut_size]
        · cases h

theorem typed_keeps {crlf : Bool} {fill : A → A} {t t' : Term A} {ch : Char}
    (h : t.typed u crlf fill ch = some t') : t'.attrs = t.attrs ∧ t'.size = t.size := by
  unfold Term.typed at h
  split at h
  · rw [Option.map_eq_some_iff] at h
    obtain ⟨p, -, rfl⟩ := h
    exact ⟨rfl, rfl⟩
  · split at h
    · rw [Option.map_eq_some_iff] at h
      obtain ⟨p, -, rfl⟩ := h
      unfold Term.newline
      dsimp only
      split <;> exact ⟨rfl, rfl⟩
    · exact putChar_keeps h

theorem typeText_keeps {crlf : Bool} {fill : A → A} : ∀ {s : List Char} {t t' : Term A},
    t.typeText u crlf fill s = some t' → t'.attrs = t.attrs ∧ t'.size = t.size
  | [], t, t', h => by cases h; exact ⟨rfl, rfl⟩
  | ch :: s, t, t', h => by
    simp only [Term.typeText, Option.bind_eq_some_iff] at h
    obtain ⟨t1, h1, h2⟩ := h
    have a := typed_keeps h1
    have c := typeText_keeps h2
    exact ⟨c.1.trans a.1, c.2.trans a.2⟩

theorem recast_typeText (crlf : Bool) {fillA : A → A} {fillB : B → B} : ∀ (s : List Char) (t : Term A),
    f (fillA t.attrs) = fillB (f t.attrs) →
    (t.recast f b).typeText u crlf fillB s =
      (t.typeText u crlf fillA s).map (Term.recast f b)
  | [], t, hf => rfl
  | ch :: s, t, hf => by
    simp only [Term.typeText]
    rw [recast_typed crlf t hf ch]
    cases h : t.typed u crlf fillA ch with
    | none => rfl
    | some t1 =>
      simp only [Option.map_some, Option.bind_some]
      exact recast_typeText crlf s t1 (by rw [(typed_keeps h).1]; exact hf)

/-! ## Sound grids -/

theorem Spec.Term.Sound.goto {t : Term A} (h : t.Sound) {p : Cursor} (hp : InBounds p t.size) :
    (t.goto p).Sound :=
  ⟨h.size, fun c e => (by cases e; exact hp), fun c e => (by cases e), h.paired⟩

theorem Spec.Term.Sound.erase {t : Term A} (h : t.Sound) (R : Cursor → Prop) [DecidablePred R] (d : A) :
    (t.erase R d).Sound := by
  refine ⟨h.size, h.cur, h.last, ?_⟩
  obtain ⟨h1, h2⟩ := h.paired
  have hr : ∀ q, (t.erase R d).cell q = .right →
      ¬ R q ∧ ¬ R ⟨q.line, q.column - 1⟩ ∧ t.cell q = .right := by
    intro q e
    unfold Term.erase at e
    dsimp only at e
    split at e
    · cases e
    · rename_i hn
      cases hc : t.cell q with
      | narrow y a => rw [hc] at e; cases e
      | torn => rw [hc] at e; cases e
      | left y a => rw [hc] at e; dsimp only at e; split at e <;> cases e
      | right =>
        rw [hc] at e; dsimp only at e
        split at e
        · cases e
        · rename_i hn'; exact ⟨hn, hn', rfl⟩
  have hl : ∀ q x a, (t.erase R d).cell q = .left x a →
      ¬ R q ∧ ¬ R ⟨q.line, q.column + 1⟩ ∧ t.cell q = .left x a := by
    intro q x a e
    unfold Term.erase at e
    dsimp only at e
    split at e
    · cases e
    · rename_i hn
      cases hc : t.cell q with
      | narrow y a => rw [hc] at e; cases e
      | torn => rw [hc] at e; cases e
      | right => rw [hc] at e; dsimp only at e; split at e <;> cases e
      | left y a =>
        rw [hc] at e; dsimp only at e
        split at e
        · cases e
        · rename_i hn'; exact ⟨hn, hn', e⟩
  refine ⟨fun l c e => ?_, fun l c x a e => ?_⟩
  · obtain ⟨n1, n2, e⟩ := hr _ e
    obtain ⟨a, x, d', b⟩ := h1 l c e
    have : c - 1 + 1 = c := by omega
    refine ⟨a, x, d', ?_⟩
    unfold Term.erase
    dsimp only
    rw [if_neg n2, b]
    dsimp only
    rw [this, if_neg n1]
  · obtain ⟨n1, n2, e⟩ := hl _ _ _ e
    obtain ⟨a, a', b⟩ := h2 l c x _ e
    refine ⟨a, a', ?_⟩
    unfold Term.erase
    dsimp only
    rw [if_neg n2, b]
    dsimp only
    rw [Nat.add_sub_cancel, if_neg n1]

theorem shifted_in {t : Term A} {p : Cursor} (hp : InBounds p t.size) (d : Dir) (n : Nat) :
    InBounds (t.shifted p d n) t.size := by
  have a := hp.1
  have c := hp.2
  cases d <;> unfold Term.shifted <;> refine ⟨?_, ?_⟩ <;> dsimp only <;> omega

theorem Spec.Term.Sound.newline {t : Term A} (h : t.Sound) {p : Cursor} (hp : InBounds p t.size)
    (crlf : Bool) (d : A) : (t.newline crlf d p).Sound := by
  have a := hp.1
  have c := hp.2
  have hcol : (if crlf then 0 else p.column) < t.size.columns := by split <;> omega
  unfold Term.newline
  dsimp only
  split
  · rename_i hl
    exact h.goto ⟨hl, hcol⟩
  · have h1 := h.goto (p := ⟨p.line, if crlf then 0 else p.column⟩) ⟨a, hcol⟩
    obtain ⟨p1, p2⟩ := h.paired
    refine ⟨h1.size, h1.cur, h1.last, fun l c e => ?_, fun l c x a' e => ?_⟩
    · dsimp only at e ⊢
      split at e
      · rename_i hl
        rw [if_pos hl]
        exact p1 _ _ e
      · cases e
    · dsimp only at e ⊢
      split at e
      · rename_i hl
        rw [if_pos hl]
        obtain ⟨y1, y2, y3⟩ := p2 _ _ _ _ e
        exact ⟨by show l < t.size.lines; omega, y2, y3⟩
      · cases e

theorem Spec.Term.Sound.putChar [DecidableEq A] {t t' : Term A} (h : t.Sound) {ch : Char}
    (e : t.putChar u ch = some t') : t'.Sound := by
  unfold Term.putChar at e
  split at e
  · cases e
  split at e
  · split at e
    · cases e
    · rename_i c hc
      split at e
      · rename_i x a hx
        cases e
        refine ⟨h.size, h.cur, h.last, paired_narrow h.paired (p := c)
          (N := .narrow (x ++ [ch]) a) rfl (by simp [TCell.isLeft]) fun q => ?_⟩
        unfold narrowCells
        rw [set_cell, hx]
        simp [TCell.isLeft]
      · rename_i x a hx
        cases e
        refine ⟨h.size, h.cur, h.last, ?_⟩
        obtain ⟨h1, h2⟩ := paired_iff.mp h.paired
        have hk : ∀ q, ((t.set c (.left (x ++ [ch]) a)).cell q = .right ↔ t.cell q = .right) ∧
            ((t.set c (.left (x ++ [ch]) a)).cell q).isLeft = (t.cell q).isLeft := by
          intro q
          rw [set_cell]
          by_cases hq : q = c
          · rw [if_pos hq, hq, hx]; simp [TCell.isLeft]
          · rw [if_neg hq]; exact ⟨Iff.rfl, rfl⟩
        refine paired_iff.mpr ⟨fun q hq => ?_, fun q hq => ?_⟩
        · rw [(hk _).2]; exact h1 q ((hk q).1.mp hq)
        · obtain ⟨y1, y2, y3⟩ := h2 q (by rw [← (hk q).2]; exact hq)
          exact ⟨y1, y2, (hk _).1.mpr y3⟩
      · cases e
  · split at e
    · cases e
    · rename_i p hp
      have hin := h.cur p hp
      have hadv : ∀ n c, t.advance p n = some c → InBounds c t.size := by
        intro n c e1
        unfold Term.advance at e1
        split at e1
        · rename_i hl; cases e1; exact ⟨hin.1, hl⟩
        · cases e1
      split at e
      · cases e
        refine ⟨?_, ?_, ?_, ?_⟩
        · show GoodSize (t.cut p).size; rw [cut_size]; exact h.size
        · intro c e1; show InBounds c (t.cut p).size; rw [cut_size]; exact hadv 1 c e1
        · intro c e1; cases e1; show InBounds p (t.cut p).size; rw [cut_size]; exact hin
        · exact paired_narrow h.paired (cut_size t p) (by simp [TCell.isLeft])
            (narrow_cells t p (.narrow [ch] t.attrs))
      · split at e
        · rename_i hw
          cases e
          have hs : ((t.cut p).cut ⟨p.line, p.column + 1⟩).size = t.size := by
            rw [cut_size, cut_size]
          refine ⟨?_, ?_, ?_, ?_⟩
          · show GoodSize ((t.cut p).cut ⟨p.line, p.column + 1⟩).size; rw [hs]; exact h.size
          · intro c e1
            show InBounds c ((t.cut p).cut ⟨p.line, p.column + 1⟩).size
            rw [hs]; exact hadv 2 c e1
          · intro c e1; cases e1
            show InBounds p ((t.cut p).cut ⟨p.line, p.column + 1⟩).size
            rw [hs]; exact hin
          · exact paired_wide h.paired hs (by simp [TCell.isLeft]) hin hw.2
              (wide_cells h.paired p (.left [ch] t.attrs))
        · cases e

theorem Spec.Term.Sound.typed [DecidableEq A] {crlf : Bool} {fill : A → A} {t t' : Term A} {ch : Char} (h : t.Sound)
    (e : t.typed u crlf fill ch = some t') : t'.Sound := by
  unfold Term.typed at e
  split at e
  · rw [Option.map_eq_some_iff] at e
    obtain ⟨p, hp, rfl⟩ := e
    have := h.cur p hp
    exact h.goto ⟨this.1, Nat.lt_of_le_of_lt (Nat.zero_le _) this.2⟩
  · split at e
    · rw [Option.map_eq_some_iff] at e
      obtain ⟨p, hp, rfl⟩ := e
      exact h.newline (h.cur p hp) _ _
    · exact h.putChar e

theorem Spec.Term.Sound.typeText [DecidableEq A] {crlf : Bool} {fill : A → A} : ∀ {s : List Char} {t t' : Term A}, t.Sound →
    t.typeText u crlf fill s = some t' → t'.Sound
  | [], t, t', h, e => by cases e; exact h
  | ch :: s, t, t', h, e => by
    simp only [Term.typeText, Option.bind_eq_some_iff] at e
    obtain ⟨t1, h1, h2⟩ := e
    exact Spec.Term.Sound.typeText (h.typed h1) h2

theorem Spec.Term.Sound.paint {p : Page} (h : p.grid.Sound) (t : Theme) : (p.paint t).grid.Sound :=
  ⟨h.size, h.cur, h.last, h.paired⟩

theorem Spec.Term.Sound.put {crlf : Bool} {p p' : Page} {s : List Char} (h : p.grid.Sound)
    (e : p.put u crlf s = some p') : p'.grid.Sound := by
  unfold Page.put at e
  rw [Option.map_eq_some_iff] at e
  obtain ⟨g, hg, rfl⟩ := e
  exact h.typeText hg

theorem put_size {crlf : Bool} {p p' : Page} {s : List Char}
    (e : p.put u crlf s = some p') : p'.grid.size = p.grid.size := by
  unfold Page.put at e
  rw [Option.map_eq_some_iff] at e
  obtain ⟨g, hg, rfl⟩ := e
  exact (typeText_keeps hg).2

theorem Spec.Term.Sound.after {crlf : Bool} {p p' : Page} {op : TOp} (h : p.grid.Sound)
    (e : p.after u crlf op = some p') : p'.grid.Sound ∧ p'.grid.size = p.grid.size := by
  cases op with
  | write s => exact ⟨h.put e, put_size e⟩
  | styled t s =>
    simp only [Page.after, Option.map_eq_some_iff] at e
    obtain ⟨p1, h1, rfl⟩ := e
    exact ⟨((h.paint t).put h1).paint _, (put_size h1 : _ = (p.paint t).grid.size)⟩
  | clearScreen =>
    cases e
    refine ⟨(h.erase _ _).goto ?_, rfl⟩
    obtain ⟨a, b⟩ := h.size
    exact ⟨by show 0 < p.grid.size.lines; omega, by show 0 < p.grid.size.columns; omega⟩
  | clearToLineEnd =>
    simp only [Page.after, Option.map_eq_some_iff] at e
    obtain ⟨c, h1, rfl⟩ := e
    exact ⟨h.erase _ _, rfl⟩
  | clearToScreenEnd =>
    simp only [Page.after, Option.map_eq_some_iff] at e
    obtain ⟨c, h1, rfl⟩ := e
    exact ⟨h.erase _ _, rfl⟩
  | move d n =>
    simp only [Page.after] at e
    split at e
    · cases e; exact ⟨⟨h.size, h.cur, fun c e => (by cases e), h.paired⟩, rfl⟩
    · simp only [Option.map_eq_some_iff] at e
      obtain ⟨c, h1, rfl⟩ := e
      exact ⟨h.goto (shifted_in (h.cur c h1) d n), rfl⟩
  | firstColumn =>
    simp only [Page.after, Option.map_eq_some_iff] at e
    obtain ⟨c, h1, rfl⟩ := e
    have := h.cur c h1
    exact ⟨h.goto ⟨this.1, Nat.lt_of_le_of_lt (Nat.zero_le _) this.2⟩, rfl⟩
  | moveTo c =>
    simp only [Page.after] at e
    split at e
    · rename_i hc; cases e; exact ⟨h.goto hc, rfl⟩
    · cases e
  | _ => cases e; first | exact ⟨h, rfl⟩ | exact ⟨h.paint _, rfl⟩

theorem Spec.Term.Sound.failed {p : Page} (h : p.grid.Sound) (op : TOp) :
    (p.failed op).grid.Sound ∧ (p.failed op).grid.size = p.grid.size := by
  cases op <;> first | exact ⟨h, rfl⟩ | exact ⟨h.paint _, rfl⟩

/-! ## Unix -/

variable {crlf : Bool} {fill : DevAttrs → DevAttrs}

/-- `Shows`, and both agree on which character a combining mark would join. -/
def Spec.Emu.Exact (fill : DevAttrs → DevAttrs) (e : Emu) (p : Page) : Prop :=
  e.t.size = p.grid.size ∧ (∀ q, e.t.cell q = (p.grid.cell q).map (Ink.unix fill)) ∧
  e.t.cur = p.grid.cur ∧ e.t.last = p.grid.last ∧ e.t.attrs = p.grid.attrs.unix fill ∧
  e.visible = p.visible

/-- `after`, where a move by nothing is nothing at all. -/
def Spec.Page.after0 (u : UEnv) (crlf : Bool) (p : Page) : TOp → Option Page
  | .move d n => if n = 0 then some p else p.after u crlf (.move d n)
  | op => p.after u crlf op

theorem shows_iff {e : Emu} {p : Page} : e.Exact fill p ↔
    e = ⟨p.grid.recast (Ink.unix fill) e.t.bce, p.visible⟩ := by
  obtain ⟨⟨z, c, cu, la, at', bc⟩, v⟩ := e
  unfold Emu.Exact Term.recast
  simp only [Emu.mk.injEq, Term.mk.injEq, and_true]
  constructor
  · rintro ⟨h1, h2, h3, h4, h5, h6⟩
    exact ⟨⟨h1, funext h2, h3, h4, h5⟩, h6⟩
  · rintro ⟨⟨h1, h2, h3, h4, h5⟩, h6⟩
    exact ⟨h1, fun q => by rw [h2], h3, h4, h5, h6⟩

theorem emu_append (a c : List Out) (e : Emu) :
    e.play u crlf fill (a ++ c) = (e.play u crlf fill a).bind (Emu.play u crlf fill c) := by
  induction a generalizing e with
  | nil => rfl
  | cons o a ih =>
    simp only [List.cons_append, Emu.play]
    cases e.step u crlf fill o with
    | none => rfl
    | some t' => exact ih t'

theorem emu_one (o : Out) (e : Emu) : e.play u crlf fill [o] = e.step u crlf fill o := by
  simp only [Emu.play]
  cases e.step u crlf fill o <;> rfl

theorem emu_attrs {os : List Out} (h : AllAttr os) (e : Emu) :
    e.play u crlf fill os = some { e with t := { e.t with attrs := os.foldl devStep e.t.attrs } } := by
  induction os generalizing e with
  | nil => rfl
  | cons o os ih =>
    obtain ⟨c, ps, rfl, hc⟩ := h o (List.mem_cons_self)
    have e1 : e.step u crlf fill (.cap c ps) =
        some { e with t := { e.t with attrs := devStep e.t.attrs (.cap c ps) } } := by
      have := step_attrCap u hc ps e.t
      cases c <;> first | exact hc.elim | skip
      all_goals (simp only [Emu.step]; rw [this]; rfl)
    simp only [Emu.play, e1, Option.bind_some]
    exact ih (fun o ho => h o (List.mem_cons_of_mem _ ho)) _

/-- The writer's idea of the attributes is right, and the terminal shows the page. -/
structure OnPage (fill : DevAttrs → DevAttrs) (w : WS) (e : Emu) (p : Page) : Prop where
  dev : devAttrs w.log = view w.theme
  shows : e.Exact fill p
  ink : p.grid.attrs = { theme := w.theme }

/-- From `w` and `e` the output leads to `w'` and the page `p'`. -/
def Reaches (u : UEnv) (crlf : Bool) (fill : DevAttrs → DevAttrs) (w : WS) (e : Emu) (w' : WS)
    (p' : Page) : Prop :=
  ∃ new e', w'.log = w.log ++ new ∧ e.play u crlf fill new = some e' ∧ OnPage fill w' e' p'

theorem Reaches.trans {w w1 w2 : WS} {e : Emu} {p1 p2 : Page}
    (h1 : Reaches u crlf fill w e w1 p1)
    (h2 : ∀ e1, OnPage fill w1 e1 p1 → Reaches u crlf fill w1 e1 w2 p2) :
    Reaches u crlf fill w e w2 p2 := by
  obtain ⟨n1, e1, a1, a2, a3⟩ := h1
  obtain ⟨n2, e2, b1, b2, b3⟩ := h2 e1 a3
  refine ⟨n1 ++ n2, e2, by rw [b1, a1, List.append_assoc], ?_, b3⟩
  rw [emu_append, a2]
  exact b2

theorem OnPage.same {w w' : WS} {e : Emu} {p : Page} (h : OnPage fill w e p)
    (hl : w'.log = w.log) (ht : w'.theme = w.theme) : Reaches u crlf fill w e w' p :=
  ⟨[], e, by simp [hl], rfl, by rw [hl, ht]; exact h.dev, h.shows, by rw [ht]; exact h.ink⟩

/-- A call that only sends attribute commands. -/
theorem OnPage.attrs {w w' : WS} {e : Emu} {p : Page} (h : OnPage fill w e p) {new : List Out}
    (hl : w'.log = w.log ++ new) (ha : AllAttr new) (hd : devAttrs w'.log = view w'.theme) :
    Reaches u crlf fill w e w' (p.paint w'.theme) := by
  refine ⟨new, _, hl, emu_attrs ha e, hd, ?_, rfl⟩
  obtain ⟨h1, h2, h3, h4, h5, h6⟩ := h.shows
  refine ⟨h1, h2, h3, h4, ?_, h6⟩
  show new.foldl devStep e.t.attrs = view w'.theme
  rw [h5, h.ink]
  show new.foldl devStep (view w.theme) = _
  rw [← h.dev, ← devAttrs_append, ← hl, hd]

/-- A command that has nothing to do with attributes. -/
theorem OnPage.push {w w' : WS} {e e' : Emu} {p p' : Page} {o : Out} (h : OnPage fill w e p)
    (hl : w'.log = w.log ++ [o]) (ht : w'.theme = w.theme)
    (ho : ∀ c ps, o = .cap c ps → ¬ IsAttrCap c) (he : e.step u crlf fill o = some e')
    (hs : e'.Exact fill p') (hi : p'.grid.attrs = p.grid.attrs) :
    Reaches u crlf fill w e w' p' := by
  refine ⟨[o], e', hl, by rw [emu_one, he], ?_, hs, by rw [hi, h.ink, ht]⟩
  rw [hl, devAttrs_snoc, devStep_other ho, h.dev, ht]

theorem OnPage.fill_ok {w : WS} {e : Emu} {p : Page} (h : OnPage fill w e p) :
    (Ink.wiped p.grid.attrs).unix fill = fill (p.grid.attrs.unix fill) := by
  rw [h.ink]; rfl

theorem OnPage.roll_ok {w : WS} {e : Emu} {p : Page} (h : OnPage fill w e p) :
    (Ink.rolled p.grid.attrs).unix fill = fill (p.grid.attrs.unix fill) := by
  rw [h.ink]; rfl

theorem emu_text (s : List Char) (e : Emu) : e.step u crlf fill (.text (encode s)) =
    (e.t.typeText u crlf fill s).map fun t => { e with t := t } := by
  simp only [Emu.step, decode_encode]

theorem OnPage.text {w w' : WS} {e : Emu} {p p' : Page} {s : List Char} (h : OnPage fill w e p)
    (hl : w'.log = w.log ++ [.text (encode s)]) (ht : w'.theme = w.theme)
    (hp : p.put u crlf s = some p') : Reaches u crlf fill w e w' p' := by
  unfold Page.put at hp
  rw [Option.map_eq_some_iff] at hp
  obtain ⟨g, hg, rfl⟩ := hp
  have hk := typeText_keeps hg
  have hr := recast_typeText (u := u) (f := Ink.unix fill) (b := e.t.bce) crlf
    (fillA := Ink.rolled) (fillB := fill) s p.grid h.roll_ok
  rw [hg] at hr
  have he := shows_iff.mp h.shows
  refine h.push (o := .text (encode s))
    (e' := ⟨g.recast (Ink.unix fill) e.t.bce, p.visible⟩) hl ht (by simp) ?_
    (shows_iff.mpr rfl) hk.1
  rw [emu_text]
  have : e.t = p.grid.recast (Ink.unix fill) e.t.bce := congrArg Emu.t he
  rw [this, hr]
  have hv : e.visible = p.visible := congrArg Emu.visible he
  simp only [Option.map_some]
  rw [hv]
  rfl

theorem expandReq_cases {env : WEnv} (hg : ∀ c f, env.db c = some f → ∀ ps, (f ps).2 = true)
    (c : Cap) (ps : List Nat) (w : WS) :
    (expandReq env c ps w = .err .notSupported w) ∨
    ∃ w', expandReq env c ps w = .ok w' ∧ w'.theme = w.theme ∧ w'.log = w.log ++ [.cap c ps] := by
  unfold expandReq
  cases h : env.db c with
  | none => exact .inl rfl
  | some f => exact .inr (expand_step (hg c f h ps))

/-- What `run` on a call should establish. -/
def StepGoal (u : UEnv) (crlf : Bool) (fill : DevAttrs → DevAttrs) (w : WS) (e : Emu) (p : Page)
    (op : TOp) : Outcome WS → Prop
  | .ok w' => ∀ p', p.after0 u crlf op = some p' → Reaches u crlf fill w e w' p'
  | .err _ w' => Reaches u crlf fill w e w' (p.failed op)
  | .stop _ => True

theorem stepGoal_cap {env : WEnv} (hg : ∀ c f, env.db c = some f → ∀ ps, (f ps).2 = true)
    {w : WS} {e : Emu} {p : Page} {op : TOp} (h : OnPage fill w e p) (c : Cap) (ps : List Nat)
    (hc : ¬ IsAttrCap c) (hf : p.failed op = p)
    (hs : ∀ p', p.after0 u crlf op = some p' → ∃ g, p' = { p with grid := g } ∧
      g.attrs = p.grid.attrs ∧ e.step u crlf fill (.cap c ps) =
        some ⟨g.recast (Ink.unix fill) e.t.bce, e.visible⟩) :
    StepGoal u crlf fill w e p op (expandReq env c ps w) := by
  rcases expandReq_cases hg c ps w with h1 | ⟨w', h1, h2, h3⟩
  · rw [h1]
    show Reaches u crlf fill w e w (p.failed op)
    rw [hf]
    exact h.same rfl rfl
  · rw [h1]
    intro p' hp'
    obtain ⟨g, rfl, g1, g2⟩ := hs p' hp'
    refine h.push h3 h2 (by intro c' ps' e1; cases e1; exact hc) g2 ?_ g1
    have : e.visible = p.visible := h.shows.2.2.2.2.2
    rw [this]
    exact shows_iff.mpr rfl

theorem emu_move {e : Emu} {g : Term Ink} {v : Bool} {bc : Bool}
    (he : e = ⟨g.recast (Ink.unix fill) bc, v⟩) (d : Dir) (n : Nat) :
    e.move d n = g.cur.map fun p => ⟨(g.goto (g.shifted p d n)).recast (Ink.unix fill) bc, v⟩ := by
  subst he
  unfold Emu.move
  have hc : (g.recast (Ink.unix fill) bc).cur = g.cur := rfl
  dsimp only
  rw [hc]
  cases g.cur with
  | none => rfl
  | some p => cases d <;> rfl

theorem shifted_sat {A : Type} {t : Term A} (h1 : t.size.lines ≤ 2 ^ 32) (h2 : t.size.columns ≤ 2 ^ 32)
    (p : Cursor) (hp : InBounds p t.size) (d : Dir) (n : Nat) : t.shifted p d (toU32 n) = t.shifted p d n := by
  have a := hp.1
  have c := hp.2
  unfold toU32
  split
  · cases d <;> simp only [Term.shifted, Cursor.mk.injEq, true_and, and_true] <;> omega
  · rfl

theorem attr_reaches {env : WEnv} (hdb : DirectDB env) {w : WS} {e : Emu} {p : Page} {op : TOp}
    (h : OnPage fill w e p) (ha : IsAttrCall op.unix) (hf : p.failed op = p)
    (hp : p.after0 u crlf op = some (p.paint (op.wants p.grid.attrs.theme)))
    (hw : want w.theme (op.unix, true) = op.wants w.theme) :
    StepGoal u crlf fill w e p op (op.unix.run env w) := by
  have h1 := attrCall_post (F := FullAttrs env) (env := env) ha (s := w) (t := w.theme)
    ⟨rfl, fun _ => h.dev⟩ true
  have h2 : Always (op.unix.run env w) fun s => ∃ new, s.log = w.log ++ new ∧ AllAttr new := by
    have hi := allAttr_inv env hdb.attrs w.log
    have h0 : ∃ new, w.log = w.log ++ new ∧ AllAttr new := ⟨[], by simp, by intro o ho; cases ho⟩
    cases op <;> first | exact ha.elim | skip
    case fg c => exact inva_areq hi _ _ w h0
    case bg c => exact inva_areq hi _ _ w h0
    case addStyle st => exact inva_addStyle hi _ w h0
    case removeStyle st => exact inva_areq hi _ _ w h0
    case style st => exact inva_areq hi _ _ w h0
    case theme th => exact inva_setAttrs hi _ _ _ w h0
    case clearAttributes => exact inva_clear hi w h0
    case move d n => cases d <;> exact ha.elim
  cases ho : op.unix.run env w with
  | stop x => trivial
  | err x w' => rw [ho] at h1; exact absurd hdb.attrs h1
  | ok w' =>
    rw [ho] at h1 h2
    intro p' hp'
    rw [hp, Option.some.injEq] at hp'
    subst hp'
    obtain ⟨new, e1, e2⟩ := h2 w' rfl
    obtain ⟨t1, t2⟩ := h1
    have t2 := t2 hdb.attrs
    rw [← t1] at t2
    have := h.attrs (u := u) (crlf := crlf) e1 e2 t2
    rw [t1, hw] at this
    rw [h.ink]
    exact this

theorem text_goal {w : WS} {e : Emu} {p : Page} {op : TOp} {s : List Char} (h : OnPage fill w e p)
    (hf : p.failed op = p)
    (hp : ∀ p', p.after0 u crlf op = some p' → p.put u crlf s = some p') :
    StepGoal u crlf fill w e p op (writeBytes (encode s) w) := by
  have h1 := writeBytes_same (b := encode s) (w := w)
  cases ho : writeBytes (encode s) w with
  | stop x => trivial
  | err x w' =>
    obtain ⟨a, b⟩ := h1.2 x w' ho
    show Reaches u crlf fill w e w' (p.failed op)
    rw [hf]
    exact h.same a b
  | ok w' =>
    obtain ⟨a, b⟩ := h1.1 w' ho
    intro p' hp'
    exact h.text a b (hp p' hp')

theorem step_direct {env : WEnv} (hdb : DirectDB env) {w : WS} {e : Emu} {p : Page}
    (hs1 : p.grid.size.lines ≤ 2 ^ 32) (hs2 : p.grid.size.columns ≤ 2 ^ 32)
    (hs : ∀ c, p.grid.cur = some c → InBounds c p.grid.size) (h : OnPage fill w e p) (op : TOp) :
    StepGoal u crlf fill w e p op (op.unix.run env w) := by
  have he := shows_iff.mp h.shows
  have het : e.t = p.grid.recast (Ink.unix fill) e.t.bce := congrArg Emu.t he
  have hcur : e.t.cur = p.grid.cur := h.shows.2.2.1
  have hfill : fill e.t.attrs = (Ink.wiped p.grid.attrs).unix fill := by
    rw [h.fill_ok]; exact congrArg fill h.shows.2.2.2.2.1
  cases op with
  | fg c => exact attr_reaches hdb h trivial rfl rfl rfl
  | bg c => exact attr_reaches hdb h trivial rfl rfl rfl
  | addStyle st => exact attr_reaches hdb h trivial rfl rfl rfl
  | removeStyle st => exact attr_reaches hdb h trivial rfl rfl rfl
  | style st => exact attr_reaches hdb h trivial rfl rfl rfl
  | theme th => exact attr_reaches hdb h trivial rfl rfl rfl
  | clearAttributes => exact attr_reaches hdb h trivial rfl rfl rfl
  | write s => exact text_goal h rfl fun p' hp' => hp'
  | firstColumn =>
    have : encode ['\r'] = [13] := by decide
    show StepGoal u crlf fill w e p .firstColumn (writeBytes [13] w)
    rw [← this]
    refine text_goal h rfl fun p' hp' => ?_
    simp only [Page.after0, Page.after, Option.map_eq_some_iff] at hp'
    obtain ⟨c, h1, rfl⟩ := hp'
    simp only [Page.put, Term.typeText, Term.typed, if_true, h1, Option.map_some,
      Option.bind_some]
  | styled th s =>
    show StepGoal u crlf fill w e p _ (writeStyled env th.fg th.bg th.style (encode s) w)
    unfold writeStyled
    have g1 := attr_reaches (u := u) (crlf := crlf) hdb (op := .theme th) h trivial rfl rfl rfl
    have g1 : StepGoal u crlf fill w e p (.theme th) (setAttrs env th.fg th.bg th.style w) := g1
    have k1 := setAttrs_post (F := FullAttrs env) (env := env) th.fg th.bg th.style
      (s := w) (t := w.theme) ⟨rfl, fun _ => h.dev⟩
    cases e1 : setAttrs env th.fg th.bg th.style w with
    | stop x => trivial
    | err x w1 => rw [e1] at k1; exact absurd hdb.attrs k1
    | ok w1 =>
      rw [e1] at g1
      have g1 : Reaches u crlf fill w e w1 (p.paint th) := g1 _ rfl
      simp only [Outcome.andThen]
      have g2 : ∀ e1, OnPage fill w1 e1 (p.paint th) →
          StepGoal u crlf fill w1 e1 (p.paint th) (.write s) (writeBytes (encode s) w1) :=
        fun e1 h1 => text_goal h1 rfl fun p' hp' => hp'
      cases e2 : writeBytes (encode s) w1 with
      | stop x => trivial
      | err x w2 =>
        rw [e2] at g2
        exact g1.trans g2
      | ok w2 =>
        rw [e2] at g2
        dsimp only
        have key : ∀ p', (p.paint th).put u crlf s = some p' →
            StepGoal u crlf fill w e p' .clearAttributes (clearAttributes env w2) := by
          intro p' hp'
          have g3 := g1.trans fun e1 h1 => g2 e1 h1 p' hp'
          have h0 := g3
          obtain ⟨n3, e3, a3, b3, c3⟩ := g3
          have g4 := attr_reaches (u := u) (crlf := crlf) hdb (op := .clearAttributes) c3 trivial
            rfl rfl rfl
          have g4 : StepGoal u crlf fill w2 e3 p' .clearAttributes (clearAttributes env w2) := g4
          cases e4 : clearAttributes env w2 with
          | stop x => trivial
          | err x w3 =>
            rw [e4] at g4
            obtain ⟨n4, e4, a4, b4, c4⟩ := g4
            exact ⟨n3 ++ n4, e4, by rw [a4, a3, List.append_assoc], by rw [emu_append, b3]; exact b4,
              c4⟩
          | ok w3 =>
            rw [e4] at g4
            intro p'' hp''
            obtain ⟨n4, e4, a4, b4, c4⟩ := g4 p'' hp''
            exact ⟨n3 ++ n4, e4, by rw [a4, a3, List.append_assoc], by rw [emu_append, b3]; exact b4,
              c4⟩
        cases e3 : clearAttributes env w2 with
        | stop x => trivial
        | err x w3 =>
          exfalso
          rw [e1] at k1
          have k2 : At (FullAttrs env) _ w2 :=
            writeBytes_always (F := FullAttrs env) (encode s) k1 w2 (by rw [e2]; rfl)
          have k3 := clear_post (env := env) k2
          rw [e3] at k3
          exact k3 hdb.attrs
        | ok w3 =>
          intro p' hp'
          simp only [Page.after0, Page.after, Option.map_eq_some_iff] at hp'
          obtain ⟨p1, h1, rfl⟩ := hp'
          have := key p1 h1
          rw [e3] at this
          exact this _ rfl
  | clearScreen =>
    refine stepGoal_cap hdb.good h .clearScreen [] (by simp [IsAttrCap]) rfl fun p' hp' => ?_
    cases hp'
    refine ⟨_, rfl, rfl, ?_⟩
    show some _ = _
    rw [hfill]
    conv => lhs; rw [het]
    rw [← recast_erase, ← recast_goto]
  | clearToLineEnd =>
    refine stepGoal_cap hdb.good h .clrEol [] (by simp [IsAttrCap]) rfl fun p' hp' => ?_
    simp only [Page.after0, Page.after, Option.map_eq_some_iff] at hp'
    obtain ⟨c, h1, rfl⟩ := hp'
    refine ⟨_, rfl, rfl, ?_⟩
    show e.t.cur.map _ = _
    rw [hcur, h1, hfill]
    conv => lhs; rw [het]
    simp only [Option.map_some]
    rw [← recast_erase]
  | clearToScreenEnd =>
    refine stepGoal_cap hdb.good h .clrEos [] (by simp [IsAttrCap]) rfl fun p' hp' => ?_
    simp only [Page.after0, Page.after, Option.map_eq_some_iff] at hp'
    obtain ⟨c, h1, rfl⟩ := hp'
    refine ⟨_, rfl, rfl, ?_⟩
    show e.t.cur.map _ = _
    rw [hcur, h1, hfill]
    conv => lhs; rw [het]
    simp only [Option.map_some]
    rw [← recast_erase]
  | move d n =>
    have hmv : ∀ p' k, p.after0 u crlf (.move d n) = some p' → n ≠ 0 → 
        (∀ c, InBounds c p.grid.size → p.grid.shifted c d k = p.grid.shifted c d n) →
        ∃ g, p' = { p with grid := g } ∧ g.attrs = p.grid.attrs ∧
          e.move d k = some ⟨g.recast (Ink.unix fill) e.t.bce, e.visible⟩ := by
      intro p' k hp' hn hk
      simp only [Page.after0, Page.after, if_neg hn, Option.map_eq_some_iff] at hp'
      obtain ⟨c, h1, rfl⟩ := hp'
      refine ⟨_, rfl, rfl, ?_⟩
      rw [emu_move he, h1, Option.map_some, hk c (hs c h1)]
      have : e.visible = p.visible := h.shows.2.2.2.2.2
      rw [this]
    have h0 : n = 0 → StepGoal u crlf fill w e p (.move d n) (.ok w) := by
      intro hn p' hp'
      simp only [Page.after0, Page.after, if_pos hn, Option.some.injEq] at hp'
      subst hp'
      exact h.same rfl rfl
    have hsat := fun c hc => shifted_sat (t := p.grid) hs1 hs2 c hc d n
    have hone : n = 1 → ∀ p', p.after0 u crlf (.move d n) = some p' → ∃ g, p' = { p with grid := g } ∧
        g.attrs = p.grid.attrs ∧
          e.move d 1 = some ⟨g.recast (Ink.unix fill) e.t.bce, e.visible⟩ := by
      intro hn p' hp'
      exact hmv p' 1 hp' (by omega) fun c _ => by rw [hn]
    cases d with
    | up =>
      show StepGoal u crlf fill w e p _ (moveUp env n w)
      unfold moveUp
      by_cases h1 : n = 1
      · rw [if_pos h1]
        exact stepGoal_cap hdb.good h .cursorUp [] (by simp [IsAttrCap]) rfl (hone h1)
      · rw [if_neg h1]
        by_cases h2 : n = 0
        · rw [if_neg (by simpa using h2)]; exact h0 h2
        · rw [if_pos h2]
          exact stepGoal_cap hdb.good h .parmUp [toU32 n] (by simp [IsAttrCap]) rfl
            fun p' hp' => hmv p' _ hp' h2 hsat
    | left =>
      show StepGoal u crlf fill w e p _ (moveLeft env n w)
      unfold moveLeft
      by_cases h1 : n = 1
      · rw [if_pos h1]
        exact stepGoal_cap hdb.good h .cursorLeft [] (by simp [IsAttrCap]) rfl (hone h1)
      · rw [if_neg h1]
        by_cases h2 : n = 0
        · rw [if_neg (by simpa using h2)]; exact h0 h2
        · rw [if_pos h2]
          exact stepGoal_cap hdb.good h .parmLeft [toU32 n] (by simp [IsAttrCap]) rfl
            fun p' hp' => hmv p' _ hp' h2 hsat
    | right =>
      show StepGoal u crlf fill w e p _ (moveRight env n w)
      unfold moveRight
      by_cases h1 : n = 1
      · rw [if_pos h1]
        exact stepGoal_cap hdb.good h .cursorRight [] (by simp [IsAttrCap]) rfl (hone h1)
      · rw [if_neg h1]
        by_cases h2 : n = 0
        · rw [if_neg (by simpa using h2)]; exact h0 h2
        · rw [if_pos h2]
          exact stepGoal_cap hdb.good h .parmRight [toU32 n] (by simp [IsAttrCap]) rfl
            fun p' hp' => hmv p' _ hp' h2 hsat
    | down =>
      show StepGoal u crlf fill w e p _ (moveDown env n w)
      unfold moveDown
      by_cases h2 : n = 0
      · rw [if_neg (by simpa using h2)]; exact h0 h2
      · rw [if_pos h2]
        exact stepGoal_cap hdb.good h .parmDown [toU32 n] (by simp [IsAttrCap]) rfl
          fun p' hp' => hmv p' _ hp' h2 hsat
  | moveTo c =>
    have hreq : ∀ cap ps f, env.db cap = some f → expand env cap ps f w = expandReq env cap ps w := by
      intro cap ps f hf
      unfold expandReq
      rw [hf]
    have hin : ∀ p', p.after0 u crlf (.moveTo c) = some p' → InBounds c p.grid.size ∧
        p' = { p with grid := p.grid.goto c } := by
      intro p' hp'
      simp only [Page.after0, Page.after] at hp'
      split at hp'
      · rename_i hc; cases hp'; exact ⟨hc, rfl⟩
      · cases hp'
    have haddr : StepGoal u crlf fill w e p (.moveTo c)
        (expandReq env .cursorAddress [toU32 c.line, toU32 c.column] w) := by
      refine stepGoal_cap hdb.good h _ _ (by simp [IsAttrCap]) rfl fun p' hp' => ?_
      obtain ⟨hc, rfl⟩ := hin p' hp'
      refine ⟨_, rfl, rfl, ?_⟩
      have a1 : toU32 c.line = c.line := by
        unfold toU32; rw [if_neg]; have := hc.1; omega
      have a2 : toU32 c.column = c.column := by
        unfold toU32; rw [if_neg]; have := hc.2; omega
      rw [a1, a2]
      show (if InBounds ⟨c.line, c.column⟩ e.t.size then _ else _ : Option Term).map _ = _
      have hz : e.t.size = p.grid.size := h.shows.1
      rw [if_pos (by rw [hz]; exact hc), Option.map_some]
      conv => lhs; rw [het]
      rfl
    have hhome : c = ⟨0, 0⟩ → StepGoal u crlf fill w e p (.moveTo c)
        (expandReq env .cursorHome [] w) := by
      intro h0
      refine stepGoal_cap hdb.good h _ _ (by simp [IsAttrCap]) rfl fun p' hp' => ?_
      obtain ⟨hc, rfl⟩ := hin p' hp'
      refine ⟨_, rfl, rfl, ?_⟩
      subst h0
      show some _ = _
      conv => lhs; rw [het]
      rfl
    have hno : StepGoal u crlf fill w e p (.moveTo c) (.err .notSupported w) := h.same rfl rfl
    show StepGoal u crlf fill w e p _ (moveCursor env c w)
    unfold moveCursor
    cases ha : env.db .cursorAddress with
    | none =>
      cases hh : env.db .cursorHome with
      | none => exact hno
      | some f =>
        dsimp only
        by_cases h0 : c = ⟨0, 0⟩
        · rw [if_pos h0, hreq _ _ _ hh]; exact hhome h0
        · rw [if_neg h0]; exact hno
    | some g =>
      cases hh : env.db .cursorHome with
      | none => dsimp only; rw [hreq _ _ _ ha]; exact haddr
      | some f =>
        dsimp only
        by_cases h0 : c = ⟨0, 0⟩
        · rw [if_pos h0, hreq _ _ _ hh]; exact hhome h0
        · rw [if_neg h0, hreq _ _ _ ha]; exact haddr
  | cursorMode m =>
    have key : ∀ cap f, env.db cap = some f → ¬ IsAttrCap cap →
        (e.step u crlf fill (.cap cap []) = some { e with visible := m != .invisible }) →
        StepGoal u crlf fill w e p (.cursorMode m) (expandOpt env cap [] w) := by
      intro cap f hf hc h1
      obtain ⟨w', a1, a2, a3⟩ := expand_step (env := env) (c := cap) (ps := []) (w := w)
        (hdb.good cap f hf [])
      unfold expandOpt
      rw [hf]
      dsimp only
      rw [a1]
      intro p' hp'
      cases hp'
      refine h.push a3 a2 (by intro c' ps' e1; cases e1; exact hc) h1 ?_ rfl
      obtain ⟨s1, s2, s3, s4, s5, s6⟩ := h.shows
      exact ⟨s1, s2, s3, s4, s5, rfl⟩
    obtain ⟨f1, hf1⟩ := hdb.normal
    obtain ⟨f2, hf2⟩ := hdb.invisible
    cases m with
    | normal => exact key _ f1 hf1 (by simp [IsAttrCap]) rfl
    | overwrite => exact key _ f1 hf1 (by simp [IsAttrCap]) rfl
    | invisible => exact key _ f2 hf2 (by simp [IsAttrCap]) rfl
  | flush =>
    have h1 := flush_same (w := w)
    show StepGoal u crlf fill w e p _ (flush w)
    cases ho : flush w with
    | stop x => trivial
    | err x w' => obtain ⟨a, b⟩ := h1.2 x w' ho; exact h.same a b
    | ok w' =>
      obtain ⟨a, b⟩ := h1.1 w' ho
      intro p' hp'
      cases hp'
      exact h.same a b
  | release =>
    have h1 := flush_same (w := w)
    show StepGoal u crlf fill w e p _ (match flush w with | .err _ s' => .ok s' | o => o)
    cases ho : flush w with
    | stop x => trivial
    | err x w' =>
      obtain ⟨a, b⟩ := h1.2 x w' ho
      intro p' hp'
      cases hp'
      exact h.same a b
    | ok w' =>
      obtain ⟨a, b⟩ := h1.1 w' ho
      intro p' hp'
      cases hp'
      exact h.same a b

/-! ## Pages that differ in whether a combining mark may come -/

/-- The same grid, except perhaps that it is not known which character a mark would join. -/
def Spec.Term.Below (t t2 : Term A) : Prop := t = t2 ∨ t = { t2 with last := none }

theorem cut_last (t : Term A) (p : Cursor) (l : Option Cursor) :
    ({ t with last := l } : Term A).cut p = { t.cut p with last := l } := by
  unfold Term.cut
  dsimp only
  cases t.cell p <;> rfl

theorem putChar_below {t t2 t' : Term A} (h : t.Below t2) {ch : Char} (e : t.putChar u ch = some t') :
    t2.putChar u ch = some t' := by
  rcases h with rfl | rfl
  · exact e
  unfold Term.putChar at e ⊢
  dsimp only at e
  by_cases h1 : Control ch
  · rw [if_pos h1] at e; cases e
  rw [if_neg h1] at e ⊢
  by_cases h2 : u.w ch = 0
  · rw [if_pos h2] at e; cases e
  rw [if_neg h2] at e ⊢
  cases hc : t2.cur with
  | none => rw [hc] at e; cases e
  | some p =>
    obtain ⟨z, cell, cur, la, at', bc⟩ := t2
    dsimp only at hc
    subst hc
    dsimp only at e ⊢
    have hcut : ∀ q, (⟨z, cell, some p, none, at', bc⟩ : Term A).cut q =
        { (⟨z, cell, some p, la, at', bc⟩ : Term A).cut q with last := none } :=
      fun q => cut_last ⟨z, cell, some p, la, at', bc⟩ q none
    have hcut2 : ∀ r q, ({ (⟨z, cell, some p, la, at', bc⟩ : Term A).cut r with last := none } :
        Term A).cut q = { ((⟨z, cell, some p, la, at', bc⟩ : Term A).cut r).cut q with last := none } :=
      fun r q => cut_last _ q none
    simp only [hcut, hcut2] at e
    exact e

theorem typed_below {t t2 t' : Term A} (h : t.Below t2) {crlf : Bool} {fill : A → A} {ch : Char}
    (e : t.typed u crlf fill ch = some t') : t2.typed u crlf fill ch = some t' := by
  unfold Term.typed at e ⊢
  by_cases h1 : ch = '\r'
  · rw [if_pos h1] at e ⊢
    rcases h with rfl | rfl <;> exact e
  rw [if_neg h1] at e ⊢
  by_cases h2 : ch = '\n'
  · rw [if_pos h2] at e ⊢
    rcases h with rfl | rfl <;> exact e
  rw [if_neg h2] at e ⊢
  exact putChar_below h e

theorem typeText_below {t t2 t' : Term A} (h : t.Below t2) {crlf : Bool} {fill : A → A} {s : List Char}
    (e : t.typeText u crlf fill s = some t') :
    ∃ t2', t2.typeText u crlf fill s = some t2' ∧ t'.Below t2' := by
  cases s with
  | nil => cases e; exact ⟨t2, rfl, h⟩
  | cons ch s =>
    simp only [Term.typeText, Option.bind_eq_some_iff] at e ⊢
    obtain ⟨t1, h1, h2⟩ := e
    exact ⟨t', ⟨t1, typed_below h h1, h2⟩, .inl rfl⟩

/-- The same of pages. -/
def Spec.Page.Below (p p2 : Page) : Prop := p.visible = p2.visible ∧ p.grid.Below p2.grid

theorem Spec.Page.Below.paint {p p2 : Page} (h : p.Below p2) (t : Theme) :
    (p.paint t).Below (p2.paint t) := by
  refine ⟨h.1, ?_⟩
  rcases h.2 with e | e
  · left; unfold Page.paint; rw [e]
  · right; unfold Page.paint; rw [e]

theorem Spec.Page.Below.attrs {p p2 : Page} (h : p.Below p2) : p.grid.attrs = p2.grid.attrs := by
  rcases h.2 with e | e <;> rw [e]

theorem Spec.Page.Below.cur {p p2 : Page} (h : p.Below p2) : p.grid.cur = p2.grid.cur := by
  rcases h.2 with e | e <;> rw [e]

theorem Spec.Page.Below.size {p p2 : Page} (h : p.Below p2) : p.grid.size = p2.grid.size := by
  rcases h.2 with e | e <;> rw [e]

theorem Spec.Page.Below.put {p p2 p' : Page} (h : p.Below p2) {crlf : Bool} {s : List Char}
    (e : p.put u crlf s = some p') : ∃ p2', p2.put u crlf s = some p2' ∧ p'.Below p2' := by
  unfold Page.put at e ⊢
  rw [Option.map_eq_some_iff] at e
  obtain ⟨g, hg, rfl⟩ := e
  obtain ⟨g2, a, b⟩ := typeText_below h.2 hg
  exact ⟨{ p2 with grid := g2 }, by rw [a]; rfl, h.1, b⟩

theorem Spec.Page.Below.goto {p p2 : Page} (h : p.Below p2) (c : Cursor) :
    ({ p with grid := p.grid.goto c } : Page).Below { p2 with grid := p2.grid.goto c } := by
  refine ⟨h.1, .inl ?_⟩
  rcases h.2 with e | e <;> rw [e] <;> rfl

theorem Spec.Page.Below.erase {p p2 : Page} (h : p.Below p2) (R : Cursor → Prop) [DecidablePred R]
    (d : Ink) : ({ p with grid := p.grid.erase R d } : Page).Below { p2 with grid := p2.grid.erase R d } := by
  refine ⟨h.1, ?_⟩
  rcases h.2 with e | e
  · left; rw [e]
  · right; rw [e]; rfl

theorem Spec.Page.Below.after {p p2 p' : Page} (h : p.Below p2) {crlf : Bool} {op : TOp}
    (e : p.after u crlf op = some p') : ∃ p2', p2.after0 u crlf op = some p2' ∧ p'.Below p2' := by
  have hattr : ∀ op' : TOp, p.paint (op'.wants p.grid.attrs.theme) = p' →
      p'.Below (p2.paint (op'.wants p2.grid.attrs.theme)) := by
    rintro op' rfl
    rw [h.attrs]
    exact h.paint _
  cases op with
  | write s => exact h.put e
  | styled t s =>
    simp only [Page.after0, Page.after, Option.map_eq_some_iff] at e ⊢
    obtain ⟨p1, h1, rfl⟩ := e
    obtain ⟨p2', a, b⟩ := (h.paint t).put h1
    exact ⟨_, ⟨p2', a, rfl⟩, b.paint _⟩
  | clearScreen =>
    cases e
    refine ⟨_, rfl, ?_⟩
    rw [h.attrs]
    exact (h.erase _ _).goto _
  | clearToLineEnd =>
    simp only [Page.after0, Page.after, Option.map_eq_some_iff] at e ⊢
    obtain ⟨c, h1, rfl⟩ := e
    refine ⟨_, ⟨c, by rw [← h.cur]; exact h1, rfl⟩, ?_⟩
    rw [h.attrs]
    exact h.erase _ _
  | clearToScreenEnd =>
    simp only [Page.after0, Page.after, Option.map_eq_some_iff] at e ⊢
    obtain ⟨c, h1, rfl⟩ := e
    refine ⟨_, ⟨c, by rw [← h.cur]; exact h1, rfl⟩, ?_⟩
    rw [h.attrs]
    exact h.erase _ _
  | move d n =>
    simp only [Page.after0, Page.after] at e ⊢
    by_cases hn : n = 0
    · rw [if_pos hn] at e ⊢
      cases e
      refine ⟨p2, rfl, h.1, .inr ?_⟩
      rcases h.2 with e | e <;> rw [e]
    · rw [if_neg hn] at e ⊢
      rw [if_neg hn]
      simp only [Option.map_eq_some_iff] at e ⊢
      obtain ⟨c, h1, rfl⟩ := e
      refine ⟨_, ⟨c, by rw [← h.cur]; exact h1, rfl⟩, ?_⟩
      have : p.grid.shifted c d n = p2.grid.shifted c d n := by
        rcases h.2 with e | e <;> rw [e]
        cases d <;> rfl
      rw [this]
      exact h.goto _
  | firstColumn =>
    simp only [Page.after0, Page.after, Option.map_eq_some_iff] at e ⊢
    obtain ⟨c, h1, rfl⟩ := e
    exact ⟨_, ⟨c, by rw [← h.cur]; exact h1, rfl⟩, h.goto _⟩
  | moveTo c =>
    simp only [Page.after0, Page.after] at e ⊢
    rw [← h.size]
    split at e
    · rename_i hc; cases e; rw [if_pos hc]; exact ⟨_, rfl, h.goto _⟩
    · cases e
  | cursorMode m =>
    cases e
    exact ⟨_, rfl, rfl, h.2⟩
  | flush => cases e; exact ⟨_, rfl, h⟩
  | release => cases e; exact ⟨_, rfl, h⟩
  | fg c => cases e; exact ⟨_, rfl, hattr (.fg c) rfl⟩
  | bg c => cases e; exact ⟨_, rfl, hattr (.bg c) rfl⟩
  | addStyle c => cases e; exact ⟨_, rfl, hattr (.addStyle c) rfl⟩
  | removeStyle c => cases e; exact ⟨_, rfl, hattr (.removeStyle c) rfl⟩
  | style c => cases e; exact ⟨_, rfl, hattr (.style c) rfl⟩
  | theme c => cases e; exact ⟨_, rfl, hattr (.theme c) rfl⟩
  | clearAttributes => cases e; exact ⟨_, rfl, hattr .clearAttributes rfl⟩

theorem Spec.Page.Below.failed {p p2 : Page} (h : p.Below p2) (op : TOp) :
    (p.failed op).Below (p2.failed op) := by
  cases op <;> first | exact h | exact h.paint _

theorem Spec.Page.Below.shows {p p2 : Page} (h : p.Below p2) {e : Emu} (hs : e.Exact fill p2) :
    e.Shows fill p := by
  obtain ⟨s1, s2, s3, s4, s5, s6⟩ := hs
  refine ⟨by rw [h.size, s1], fun q => ?_, by rw [h.cur, s3], fun c hc => ?_, by rw [h.attrs, s5],
    by rw [h.1, s6]⟩
  · rw [s2]; rcases h.2 with e | e <;> rw [e]
  · rcases h.2 with e | e
    · rw [s4, ← e, hc]
    · rw [e] at hc; cases hc

/-- A page that is shown is below one that is shown exactly. -/
theorem Spec.Emu.Shows.above {p : Page} {e : Emu} (h : e.Shows fill p) :
    ∃ p2 : Page, p.Below p2 ∧ e.Exact fill p2 := by
  obtain ⟨s1, s2, s3, s4, s5, s6⟩ := h
  cases hl : p.grid.last with
  | none =>
    refine ⟨{ p with grid := { p.grid with last := e.t.last } }, ⟨rfl, .inr ?_⟩, s1, s2, s3, rfl, s5, s6⟩
    rw [← hl]
  | some c => exact ⟨p, ⟨rfl, .inl rfl⟩, s1, s2, s3, by rw [s4 c hl, hl], s5, s6⟩

end Mortal
