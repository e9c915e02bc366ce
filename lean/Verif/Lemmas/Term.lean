import Verif.Spec.Screen
import Verif.Lemmas.Writer
import Verif.Lemmas.Utf8

/-! # Facts about the terminal of `Spec/Screen.lean` -/

namespace Mortal
open Spec

theorem play_append (u : UEnv) (a b : List Out) (t : Term) :
    t.play u (a ++ b) = (t.play u a).bind (Term.play u b) := by
  induction a generalizing t with
  | nil => rfl
  | cons o a ih =>
    simp only [List.cons_append, Term.play]
    cases t.step u o with
    | none => rfl
    | some t' => exact ih t'

theorem play_one (u : UEnv) (o : Out) (t : Term) : t.play u [o] = t.step u o := by
  simp only [Term.play]
  cases t.step u o <;> rfl

/-- An attribute command changes only the attributes. -/
theorem step_attrCap (u : UEnv) {c : Cap} (hc : IsAttrCap c) (ps : List Nat) (t : Term) :
    t.step u (.cap c ps) = some { t with attrs := devStep t.attrs (.cap c ps) } := by
  cases c <;> first | exact hc.elim | rfl

/-- Every entry is an attribute command. -/
def AllAttr (os : List Out) : Prop := ∀ o ∈ os, ∃ c ps, o = .cap c ps ∧ IsAttrCap c

theorem play_attrs (u : UEnv) {os : List Out} (h : AllAttr os) (t : Term) :
    t.play u os = some { t with attrs := os.foldl devStep t.attrs } := by
  induction os generalizing t with
  | nil => rfl
  | cons o os ih =>
    obtain ⟨c, ps, rfl, hc⟩ := h o (List.mem_cons_self)
    simp only [Term.play, step_attrCap u hc, Option.bind_some]
    exact ih (fun o ho => h o (List.mem_cons_of_mem _ ho)) _

theorem devAttrs_append (a b : List Out) : devAttrs (a ++ b) = b.foldl devStep (devAttrs a) := by
  unfold devAttrs; rw [List.foldl_append]

theorem set_cell {A : Type} (t : Term A) (p q : Cursor) (c : TCell A) :
    (t.set p c).cell q = if q = p then c else t.cell q := rfl

theorem cut_size {A : Type} (t : Term A) (p : Cursor) : (t.cut p).size = t.size := by
  unfold Term.cut; split <;> rfl
theorem cut_attrs {A : Type} (t : Term A) (p : Cursor) : (t.cut p).attrs = t.attrs := by
  unfold Term.cut; split <;> rfl

/-- A left half. -/
def Spec.TCell.isLeft {A : Type} : TCell A → Bool
  | .left _ _ => true
  | _ => false

theorem isLeft_iff {A : Type} {c : TCell A} : c.isLeft = true ↔ ∃ x d, c = .left x d := by
  cases c <;> simp [TCell.isLeft]

/-- What `cut` does to the cells. -/
theorem cut_cell {A : Type} [DecidableEq A] (t : Term A) (p q : Cursor) :
    (t.cut p).cell q =
      if (t.cell p).isLeft = true ∧ q = ⟨p.line, p.column + 1⟩ then .torn
      else if t.cell p = .right ∧ q = ⟨p.line, p.column - 1⟩ then .torn
      else t.cell q := by
  unfold Term.cut
  cases h : t.cell p with
  | left x d => simp [set_cell, TCell.isLeft]
  | right => simp [set_cell, TCell.isLeft]
  | narrow x d => simp [TCell.isLeft]
  | torn => simp [TCell.isLeft]

theorem paired_iff {A : Type} {t : Term A} : t.Paired ↔
    (∀ q : Cursor, t.cell q = .right →
      0 < q.column ∧ (t.cell ⟨q.line, q.column - 1⟩).isLeft = true) ∧
    (∀ q : Cursor, (t.cell q).isLeft = true →
      q.line < t.size.lines ∧ q.column + 1 < t.size.columns ∧
        t.cell ⟨q.line, q.column + 1⟩ = .right) := by
  unfold Term.Paired
  constructor
  · rintro ⟨h1, h2⟩
    refine ⟨fun q hq => ?_, fun q hq => ?_⟩
    · obtain ⟨a, b⟩ := h1 q.line q.column hq
      exact ⟨a, isLeft_iff.mpr b⟩
    · obtain ⟨x, d, e⟩ := isLeft_iff.mp hq
      exact h2 q.line q.column x d e
  · rintro ⟨h1, h2⟩
    refine ⟨fun l c hq => ?_, fun l c x d hq => ?_⟩
    · obtain ⟨a, b⟩ := h1 ⟨l, c⟩ hq
      exact ⟨a, isLeft_iff.mp b⟩
    · exact h2 ⟨l, c⟩ (isLeft_iff.mpr ⟨x, d, hq⟩)

theorem cursor_ext {p q : Cursor} : p = q ↔ p.line = q.line ∧ p.column = q.column := by
  cases p; cases q; simp

/-- The cells after a one-column character at `p`. -/
def narrowCells {A : Type} [DecidableEq A] (f : Cursor → TCell A) (p : Cursor) (N : TCell A)
    (q : Cursor) : TCell A :=
  if q = p then N
  else if (f p).isLeft = true ∧ q = ⟨p.line, p.column + 1⟩ then .torn
  else if f p = .right ∧ q = ⟨p.line, p.column - 1⟩ then .torn
  else f q

/-- The cells after a two-column character at `p`. -/
def wideCells {A : Type} [DecidableEq A] (f : Cursor → TCell A) (p : Cursor) (N : TCell A)
    (q : Cursor) : TCell A :=
  if q = p then N
  else if q = ⟨p.line, p.column + 1⟩ then .right
  else if (f ⟨p.line, p.column + 1⟩).isLeft = true ∧ q = ⟨p.line, p.column + 2⟩ then .torn
  else if f p = .right ∧ q = ⟨p.line, p.column - 1⟩ then .torn
  else f q

/-- The cells after writing a one-column character. -/
theorem narrow_cells {A : Type} [DecidableEq A] (t : Term A) (p : Cursor) (N : TCell A) (q : Cursor) :
    ((t.cut p).set p N).cell q = narrowCells t.cell p N q := by
  unfold narrowCells
  rw [set_cell]
  by_cases hq : q = p
  · rw [if_pos hq, if_pos hq]
  · rw [if_neg hq, if_neg hq, cut_cell]

/-- The cells after writing a two-column character. -/
theorem wide_cells {A : Type} [DecidableEq A] {t : Term A} (hpair : t.Paired) (p : Cursor) (N : TCell A)
    (q : Cursor) :
    ((((t.cut p).cut ⟨p.line, p.column + 1⟩).set p N).set ⟨p.line, p.column + 1⟩ .right).cell q =
      wideCells t.cell p N q := by
  have hne : p ≠ ⟨p.line, p.column + 1⟩ := by
    rw [Ne, cursor_ext]; dsimp only; omega
  unfold wideCells
  rw [set_cell]
  by_cases hq : q = p
  · have : q ≠ ⟨p.line, p.column + 1⟩ := by rw [hq]; exact hne
    rw [if_neg this, set_cell, if_pos hq, if_pos hq]
  rw [if_neg hq]
  by_cases hq1 : q = ⟨p.line, p.column + 1⟩
  · rw [if_pos hq1, if_pos hq1]
  rw [if_neg hq1, if_neg hq1, set_cell, if_neg hq, cut_cell (t.cut p), cut_cell t, cut_cell t]
  have hp1 : ¬ (t.cell p = .right ∧ (⟨p.line, p.column + 1⟩ : Cursor) = ⟨p.line, p.column - 1⟩) := by
    rintro ⟨-, y⟩
    have := (cursor_ext.mp y).2
    dsimp only at this; omega
  rw [if_neg hp1]
  have hq2 : ¬ (q = ⟨p.line, p.column + 1 - 1⟩) := by
    intro y; apply hq; rw [y, cursor_ext]; exact ⟨rfl, by dsimp only; omega⟩
  by_cases hl : (t.cell p).isLeft = true
  · have hr := ((paired_iff.mp hpair).2 p hl).2.2
    have hnr : t.cell p ≠ .right := by intro y; rw [y] at hl; cases hl
    have t1 : (TCell.torn : TCell A).isLeft = false := rfl
    have t2 : (TCell.right : TCell A).isLeft = false := rfl
    simp [hl, hnr, hr, hq1, t1, t2]
  · have : ¬ ((t.cell p).isLeft = true ∧ (⟨p.line, p.column + 1⟩ : Cursor) =
        ⟨p.line, p.column + 1⟩) := fun y => hl y.1
    rw [if_neg this]
    have : ¬ ((t.cell p).isLeft = true ∧ q = ⟨p.line, p.column + 1⟩) := fun y => hl y.1
    rw [if_neg this]
    by_cases ha : (t.cell ⟨p.line, p.column + 1⟩).isLeft = true ∧ q = ⟨p.line, p.column + 2⟩
    · rw [if_pos ha, if_pos ha]
    · rw [if_neg ha, if_neg ha, if_neg (fun y => hq2 y.2)]

theorem paired_narrow {A : Type} [DecidableEq A] {t t' : Term A} (h : t.Paired) (hs : t'.size = t.size) {p : Cursor}
    {N : TCell A}
    (hN : N ≠ .right ∧ N.isLeft = false) (hc : ∀ q, t'.cell q = narrowCells t.cell p N q) :
    t'.Paired := by
  rw [paired_iff] at h ⊢
  obtain ⟨h1, h2⟩ := h
  refine ⟨fun q hq => ?_, fun q hq => ?_⟩
  · rw [hc] at hq
    unfold narrowCells at hq
    split at hq
    · exact absurd hq hN.1
    split at hq
    · cases hq
    split at hq
    · cases hq
    rename_i g1 g2 g3
    obtain ⟨a, b⟩ := h1 q hq
    refine ⟨a, ?_⟩
    rw [hc]
    unfold narrowCells
    have e1 : (⟨q.line, q.column - 1⟩ : Cursor) ≠ p := by
      rintro rfl
      refine g2 ⟨b, ?_⟩
      rw [cursor_ext]; exact ⟨rfl, by dsimp only; omega⟩
    rw [if_neg e1, if_neg, if_neg]
    · exact b
    · rintro ⟨x, y⟩
      apply g1
      have y1 := (cursor_ext.mp y).1
      have y2 := (cursor_ext.mp y).2
      dsimp only at y1 y2
      have := (h1 p x).1
      rw [cursor_ext]; omega
    · rintro ⟨x, y⟩
      have := (h2 p x).2.2
      rw [← y] at this
      rw [this] at b
      cases b
  · rw [hc] at hq
    unfold narrowCells at hq
    split at hq
    · rw [hN.2] at hq; cases hq
    split at hq
    · cases hq
    split at hq
    · cases hq
    rename_i g1 g2 g3
    obtain ⟨a, a', b⟩ := h2 q hq
    rw [hs]
    refine ⟨a, a', ?_⟩
    rw [hc]
    unfold narrowCells
    have e1 : (⟨q.line, q.column + 1⟩ : Cursor) ≠ p := by
      rintro rfl
      exact g3 ⟨b, by rw [cursor_ext]; exact ⟨rfl, by dsimp only; omega⟩⟩
    rw [if_neg e1, if_neg, if_neg]
    · exact b
    · rintro ⟨x, y⟩
      have := (h1 p x).2
      rw [← y, b] at this
      cases this
    · rintro ⟨x, y⟩
      apply g1
      have y1 := (cursor_ext.mp y).1
      have y2 := (cursor_ext.mp y).2
      dsimp only at y1 y2
      rw [cursor_ext]; omega

theorem paired_wide {A : Type} [DecidableEq A] {t t' : Term A} (h : t.Paired) (hs : t'.size = t.size) {p : Cursor}
    {N : TCell A}
    (hN : N.isLeft = true) (hin : InBounds p t.size) (hfit : p.column + 1 < t.size.columns)
    (hc : ∀ q, t'.cell q = wideCells t.cell p N q) :
    t'.Paired := by
  have hN' : N ≠ .right := by rintro rfl; cases hN
  rw [paired_iff] at h ⊢
  obtain ⟨h1, h2⟩ := h
  refine ⟨fun q hq => ?_, fun q hq => ?_⟩
  · rw [hc] at hq
    unfold wideCells at hq
    split at hq
    · exact absurd hq hN'
    split at hq
    · rename_i g0 g1
      subst g1
      refine ⟨by dsimp only; omega, ?_⟩
      rw [hc]
      unfold wideCells
      rw [if_pos (by rw [cursor_ext]; exact ⟨rfl, by dsimp only; omega⟩)]
      exact hN
    split at hq
    · cases hq
    split at hq
    · cases hq
    rename_i g0 g1 g2 g3
    obtain ⟨a, b⟩ := h1 q hq
    refine ⟨a, ?_⟩
    rw [hc]
    unfold wideCells
    have e1 : (⟨q.line, q.column - 1⟩ : Cursor) ≠ p := by
      rintro rfl
      apply g1
      rw [cursor_ext]; exact ⟨rfl, by dsimp only; omega⟩
    have e2 : (⟨q.line, q.column - 1⟩ : Cursor) ≠ ⟨p.line, p.column + 1⟩ := by
      intro y
      have y1 := (cursor_ext.mp y).1
      have y2 := (cursor_ext.mp y).2
      dsimp only at y1 y2
      refine g2 ⟨by rw [← y]; exact b, ?_⟩
      rw [cursor_ext]; exact ⟨y1, by dsimp only; omega⟩
    rw [if_neg e1, if_neg e2, if_neg, if_neg]
    · exact b
    · rintro ⟨x, y⟩
      apply g0
      have y1 := (cursor_ext.mp y).1
      have y2 := (cursor_ext.mp y).2
      dsimp only at y1 y2
      have := (h1 p x).1
      rw [cursor_ext]; omega
    · rintro ⟨x, y⟩
      have := (h2 _ x).2.2
      rw [y] at b
      dsimp only at this
      rw [this] at b
      cases b
  · rw [hc] at hq
    unfold wideCells at hq
    split at hq
    · rename_i g0
      subst g0
      rw [hs]
      refine ⟨hin.1, hfit, ?_⟩
      rw [hc]
      unfold wideCells
      rw [if_neg (by rw [cursor_ext]; dsimp only; omega), if_pos rfl]
    split at hq
    · cases hq
    split at hq
    · cases hq
    split at hq
    · cases hq
    rename_i g0 g1 g2 g3
    obtain ⟨a, a', b⟩ := h2 q hq
    rw [hs]
    refine ⟨a, a', ?_⟩
    rw [hc]
    unfold wideCells
    have e1 : (⟨q.line, q.column + 1⟩ : Cursor) ≠ p := by
      rintro rfl
      exact g3 ⟨b, by rw [cursor_ext]; exact ⟨rfl, by dsimp only; omega⟩⟩
    have e2 : (⟨q.line, q.column + 1⟩ : Cursor) ≠ ⟨p.line, p.column + 1⟩ := by
      intro y
      have y1 := (cursor_ext.mp y).1
      have y2 := (cursor_ext.mp y).2
      dsimp only at y1 y2
      apply g0
      rw [cursor_ext]; omega
    rw [if_neg e1, if_neg e2, if_neg, if_neg]
    · exact b
    · rintro ⟨x, y⟩
      have := (h1 p x).2
      rw [← y, b] at this
      cases this
    · rintro ⟨x, y⟩
      apply g1
      have y1 := (cursor_ext.mp y).1
      have y2 := (cursor_ext.mp y).2
      dsimp only at y1 y2
      rw [cursor_ext]; dsimp only; omega

theorem decode_encode (s : List Char) : decodeAll (encode s).length (encode s) = (s, .done) := by
  have h := decodeAll_encode s []
  rw [List.append_nil] at h
  rw [h]
  simp [decodeAll]

theorem step_text (u : UEnv) (s : List Char) (t : Term) :
    t.step u (.text (encode s)) = t.putText u s := by
  simp only [Term.step, decode_encode]

/-- The cell's text is a character and marks of width zero. -/
def CellGood (u : UEnv) (c : Cell) : Prop :=
  ∃ ch ms, c.text = ch :: ms ∧ (u.w ch = 1 ∨ u.w ch = 2) ∧ ¬ Control ch ∧
    ∀ m ∈ ms, u.w m = 0 ∧ ¬ Control m

theorem putText_marks (u : UEnv) (ms : List Char) (hm : ∀ m ∈ ms, u.w m = 0 ∧ ¬ Control m)
    (t : Term) (p : Cursor) (hl : t.last = some p) :
    (∀ x d, t.cell p = .narrow x d →
      t.putText u ms = some (t.set p (.narrow (x ++ ms) d))) ∧
    (∀ x d, t.cell p = .left x d →
      t.putText u ms = some (t.set p (.left (x ++ ms) d))) := by
  have hself : ∀ c, t.cell p = c → t.set p c = t := by
    intro c hc
    unfold Term.set
    have : (fun q => if q = p then c else t.cell q) = t.cell := by
      funext q
      by_cases hq : q = p
      · subst hq; simp [hc]
      · simp [hq]
    rw [this]
  induction ms generalizing t with
  | nil =>
    constructor <;> intro x d h <;> rw [List.append_nil, hself _ h] <;> rfl
  | cons m ms ih =>
    obtain ⟨hw, hc⟩ := hm m (List.mem_cons_self)
    have hself' : ∀ (t : Term) c, t.cell p = c → t.set p c = t := by
      intro t c hc
      unfold Term.set
      have : (fun q => if q = p then c else t.cell q) = t.cell := by
        funext q
        by_cases hq : q = p
        · subst hq; simp [hc]
        · simp [hq]
      rw [this]
    have hset2 : ∀ c d, (t.set p c).set p d = t.set p d := by
      intro c d
      unfold Term.set
      dsimp only
      congr 1
      funext q
      by_cases hq : q = p <;> simp [hq]
    constructor
    · intro x d h
      have e : t.putChar u m = some (t.set p (.narrow (x ++ [m]) d)) := by
        unfold Term.putChar
        rw [if_neg hc, if_pos hw, hl]
        simp only [h]
      rw [Term.putText, e, Option.bind_some]
      have := (ih (fun m hm' => hm m (List.mem_cons_of_mem _ hm')) (t.set p (.narrow (x ++ [m]) d))
        hl (hself' _)).1 (x ++ [m]) d (by simp [set_cell])
      rw [this, hset2]
      simp
    · intro x d h
      have e : t.putChar u m = some (t.set p (.left (x ++ [m]) d)) := by
        unfold Term.putChar
        rw [if_neg hc, if_pos hw, hl]
        simp only [h]
      rw [Term.putText, e, Option.bind_some]
      have := (ih (fun m hm' => hm m (List.mem_cons_of_mem _ hm')) (t.set p (.left (x ++ [m]) d))
        hl (hself' _)).2 (x ++ [m]) d (by simp [set_cell])
      rw [this, hset2]
      simp

/-- A cell's text drawn at a known position where it fits. -/
theorem putText_cell {u : UEnv} {c : Cell} (hg : CellGood u c) {t : Term} {p : Cursor}
    (hp : t.cur = some p) (hin : InBounds p t.size)
    (hfit : c.isWide u = true → p.column + 1 < t.size.columns)
    (hpair : t.Paired) :
    ∃ t', t.putText u c.text = some t' ∧ t'.size = t.size ∧ t'.attrs = t.attrs ∧ t'.Paired ∧
      (∀ q, t'.cell q = if c.isWide u then wideCells t.cell p (.left c.text t.attrs) q
        else narrowCells t.cell p (.narrow c.text t.attrs) q) ∧
      t'.cur = t.advance p (if c.isWide u then 2 else 1) := by
  obtain ⟨ch, ms, ht, hw, hctl, hms⟩ := hg
  rcases hw with hw | hw
  · have hnw : c.isWide u = false := by simp [Cell.isWide, ht, hw]
    rw [ht, hnw]
    have e : t.putChar u ch = some { (t.cut p).set p (.narrow [ch] t.attrs) with
        cur := t.advance p 1, last := some p } := by
      unfold Term.putChar
      rw [if_neg hctl, if_neg (by omega), hp]
      simp only [hw, if_true]
    have e2 := (putText_marks u ms hms { (t.cut p).set p (.narrow [ch] t.attrs) with
        cur := t.advance p 1, last := some p } p rfl).1 [ch] t.attrs (by simp [set_cell])
    have hcell : ∀ q, (({ (t.cut p).set p (.narrow [ch] t.attrs) with
        cur := t.advance p 1, last := some p } : Term).set p
        (.narrow ([ch] ++ ms) t.attrs)).cell q =
        narrowCells t.cell p (.narrow (ch :: ms) t.attrs) q := by
      intro q
      rw [set_cell]
      unfold narrowCells
      by_cases hq : q = p
      · rw [if_pos hq, if_pos hq]; rfl
      · rw [if_neg hq, if_neg hq]
        show ((t.cut p).set p _).cell q = _
        rw [set_cell, if_neg hq, cut_cell]
    refine ⟨_, (congrArg (Option.bind · (Term.putText u ms)) e).trans e2, cut_size t p, cut_attrs t p, ?_,
      ?_, rfl⟩
    · exact paired_narrow hpair (cut_size t p) (by simp [TCell.isLeft]) hcell
    · exact hcell
  · have hnw : c.isWide u = true := by simp [Cell.isWide, ht, hw]
    rw [ht, hnw]
    have hf := hfit hnw
    have e : t.putChar u ch =
        some { (((t.cut p).cut ⟨p.line, p.column + 1⟩).set p (.left [ch] t.attrs)).set
            ⟨p.line, p.column + 1⟩ .right with
          cur := t.advance p 2, last := some p } := by
      unfold Term.putChar
      rw [if_neg hctl, if_neg (by omega), hp]
      simp only
      rw [if_neg (by omega), if_pos ⟨hw, hf⟩]
    have hne : p ≠ ⟨p.line, p.column + 1⟩ := by
      rw [Ne, cursor_ext]; dsimp only; omega
    have e2 := (putText_marks u ms hms
      { (((t.cut p).cut ⟨p.line, p.column + 1⟩).set p (.left [ch] t.attrs)).set
            ⟨p.line, p.column + 1⟩ .right with
          cur := t.advance p 2, last := some p } p rfl).2 [ch] t.attrs (by simp [set_cell, hne])
    have hcell : ∀ q, (({ (((t.cut p).cut ⟨p.line, p.column + 1⟩).set p (.left [ch] t.attrs)).set
            ⟨p.line, p.column + 1⟩ .right with
          cur := t.advance p 2, last := some p } : Term).set p
        (.left ([ch] ++ ms) t.attrs)).cell q =
        wideCells t.cell p (.left (ch :: ms) t.attrs) q := by
      intro q
      rw [set_cell]
      by_cases hq : q = p
      · rw [if_pos hq]; unfold wideCells; rw [if_pos hq]; rfl
      · rw [if_neg hq]
        refine (wide_cells hpair p (.left [ch] t.attrs) q).trans ?_
        unfold wideCells; rw [if_neg hq, if_neg hq]
    have hsz : ((t.cut p).cut ⟨p.line, p.column + 1⟩).size = t.size := by
      rw [cut_size, cut_size]
    refine ⟨_, (congrArg (Option.bind · (Term.putText u ms)) e).trans e2, hsz,
      by
        show ((t.cut p).cut ⟨p.line, p.column + 1⟩).attrs = t.attrs
        rw [cut_attrs, cut_attrs], ?_, ?_, rfl⟩
    · exact paired_wide hpair hsz (by simp [TCell.isLeft]) hin hf hcell
    · exact hcell

end Mortal
