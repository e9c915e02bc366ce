import Verif.Spec.Vt
import Verif.Lemmas.Input
import Verif.Lemmas.Utf8

/-! # A terminal that reads bytes: lemmas -/

namespace Mortal
open Spec

/-! ## Reading -/

theorem vfeed_nil (u : UEnv) (c : Bool) (v : Vt) : v.feed u c [] = v := rfl

theorem vfeed_cons (u : UEnv) (c : Bool) (v : Vt) (b : UInt8) (bs : Bytes) :
    v.feed u c (b :: bs) = (v.byte u c b).feed u c bs := rfl

theorem vfeed_append (u : UEnv) (c : Bool) (v : Vt) (a b : Bytes) :
    v.feed u c (a ++ b) = (v.feed u c a).feed u c b := List.foldl_append

theorem vt_ground {v : Vt} (h : v.ps = .ground) : { v with ps := .ground } = v := by
  cases v; cases h; rfl

/-- The bytes of a control sequence after its introducer. -/
theorem feed_csi_body (u : UEnv) (c : Bool) : ∀ (b : Bytes) (v : Vt) (a : Bytes), v.ps = .csi a →
    (∀ x ∈ b, 0x20 ≤ x.toNat ∧ x.toNat ≤ 0x3f) → v.feed u c b = { v with ps := .csi (a ++ b) } := by
  intro b
  induction b with
  | nil => intro v a h _; rw [vfeed_nil, List.append_nil]; cases v; cases h; rfl
  | cons x b ih =>
    intro v a h hb
    rw [vfeed_cons, Vt.byte, h]
    dsimp only
    rw [if_pos (hb x (List.mem_cons_self ..)),
      ih _ (a ++ [x]) rfl fun y hy => hb y (List.mem_cons_of_mem _ hy)]
    simp

/-- A whole control sequence. -/
theorem feed_csi {u : UEnv} {c : Bool} {v : Vt} (h : v.ps = .ground) (b : Bytes) (f : UInt8)
    (hb : ∀ x ∈ b, 0x20 ≤ x.toNat ∧ x.toNat ≤ 0x3f) (hf : 0x3f < f.toNat) :
    v.feed u c (0x1b :: 0x5b :: b ++ [f]) = v.dispatch b f.toNat := by
  rw [List.cons_append, List.cons_append, vfeed_cons, vfeed_cons, vfeed_append]
  have e1 : v.byte u c 0x1b = { v with ps := .esc } := by
    rw [Vt.byte, h]; rfl
  have e2 : ({ v with ps := .esc } : Vt).byte u c 0x5b = { v with ps := .csi [] } := rfl
  rw [e1, e2, feed_csi_body u c b _ [] rfl hb, vfeed_cons, vfeed_nil, Vt.byte]
  dsimp only
  rw [if_neg (by omega), List.nil_append]
  congr 1
  exact vt_ground h

/-- The same, with a concrete text. -/
theorem feed_esc {u : UEnv} {c : Bool} {v : Vt} (h : v.ps = .ground) (s : String) (b : Bytes)
    (f : UInt8) (e : asc s = b ++ [f]) (hb : ∀ x ∈ b, 0x20 ≤ x.toNat ∧ x.toNat ≤ 0x3f)
    (hf : 0x3f < f.toNat) : v.feed u c (esc s) = v.dispatch b f.toNat := by
  rw [esc, e]
  exact feed_csi h b f hb hf

/-- A character other than ESC. -/
theorem feed_char {u : UEnv} {c : Bool} {v : Vt} (h : v.ps = .ground) (ch : Char)
    (hch : ch.toNat ≠ 27) : v.feed u c (String.utf8EncodeChar ch) = v.char u c ch := by
  have key : ∀ (t a : Bytes) (w : Vt), w.ps = .utf8 a → { w with ps := .ground } = v → a ≠ [] → t ≠ [] →
      String.utf8EncodeChar ch = a ++ t → w.feed u c t = v.char u c ch := by
    intro t
    induction t with
    | nil => intro a w _ _ _ h; exact absurd rfl h
    | cons x t ih =>
      intro a w h1 h2 h3 _ h4
      rw [vfeed_cons, Vt.byte, h1]
      dsimp only
      unfold Vt.collect
      cases t with
      | nil =>
        rw [← h4, ← List.append_nil (String.utf8EncodeChar ch), decodeOne_encode]
        dsimp only
        rw [h2]; rfl
      | cons y t =>
        rw [decodeOne_prefix (b := a ++ [x]) (t := y :: t) (c := ch) (by rw [h4]; simp) (by simp)]
        dsimp only
        refine ih (a ++ [x]) _ rfl ?_ (by simp) (by simp) (by rw [h4]; simp)
        rw [← h2]
  cases he : String.utf8EncodeChar ch with
  | nil => exact absurd he (encodeChar_ne_nil ch)
  | cons x t =>
    have hx : x ≠ 0x1b := by
      rintro rfl
      have := decodeOne_encode ch []
      rw [List.append_nil, he] at this
      have e2 : decodeOne (0x1b :: t) = .char (Char.ofNat 27) 1 := rfl
      rw [e2] at this
      injection this with h1 _
      exact hch (by rw [← h1]; rfl)
    rw [vfeed_cons, Vt.byte, h]
    dsimp only
    rw [if_neg hx]
    unfold Vt.collect
    cases t with
    | nil =>
      rw [← he, ← List.append_nil (String.utf8EncodeChar ch), decodeOne_encode]
      dsimp only
      rw [vt_ground h]; rfl
    | cons y t =>
      rw [decodeOne_prefix (b := [x]) (t := y :: t) (c := ch) (by rw [he]; rfl) (by simp)]
      dsimp only
      exact key (y :: t) [x] _ rfl (by exact vt_ground h) (by simp) (by simp) (by rw [he]; rfl)

/-! ## Numbers -/

theorem csi_fold_digits : ∀ (d : Bytes) (x : Nat) (r : List Nat), Digits d →
    d.foldl csiNext (x :: r) =
      d.foldl (fun a d => 10 * a + (d.toNat - 48)) x :: r := by
  intro d
  induction d with
  | nil => intros; rfl
  | cons b d ih =>
    intro x r h
    have hb := h b (List.mem_cons_self ..)
    have : b ≠ 59 := by rintro rfl; exact absurd hb.2 (by decide)
    rw [List.foldl_cons, csiNext, if_neg this, ih _ _ fun y hy => h y (List.mem_cons_of_mem _ hy)]
    rfl

theorem csiParams_one (n : Nat) : csiParams (decimal n) = [n] := by
  obtain ⟨h1, h2⟩ := decimal_digits n
  unfold csiParams
  rw [csi_fold_digits _ _ _ h1, show List.foldl _ 0 (decimal n) = n from h2]
  rfl

theorem csiParams_two (m n : Nat) : csiParams (decimal m ++ 59 :: decimal n) = [m, n] := by
  obtain ⟨h1, h2⟩ := decimal_digits m
  obtain ⟨h3, h4⟩ := decimal_digits n
  unfold csiParams
  rw [List.foldl_append, csi_fold_digits _ _ _ h1, show List.foldl _ 0 (decimal m) = m from h2,
    List.foldl_cons, csiNext, if_pos rfl, csi_fold_digits _ _ _ h3, show List.foldl _ 0 (decimal n) = n from h4]
  rfl

theorem digits_csi {d : Bytes} (h : Digits d) : ∀ x ∈ d, 0x20 ≤ x.toNat ∧ x.toNat ≤ 0x3f :=
  fun x hx => ⟨by have := (h x hx).1; omega, by have := (h x hx).2; omega⟩

theorem decimal_csi (n : Nat) : ∀ x ∈ decimal n, 0x20 ≤ x.toNat ∧ x.toNat ≤ 0x3f :=
  digits_csi (decimal_digits n).1

theorem decimal_head (n : Nat) : ∃ x l, decimal n = x :: l ∧ x ≠ 63 := by
  cases h : decimal n with
  | nil =>
    have := (decimal_digits n)
    exfalso
    revert h
    rw [decimal]
    split <;> simp
  | cons x l =>
    refine ⟨x, l, rfl, ?_⟩
    have := (decimal_digits n).1 x (by rw [h]; exact List.mem_cons_self ..)
    rintro rfl
    exact absurd this.2 (by decide)

/-- A sequence that does not begin with `?`. -/
theorem dispatch_ansi (v : Vt) (b : Bytes) (f : Nat) (h : b.head? ≠ some 63) :
    v.dispatch b f = v.ansi (csiParams b) f := by
  unfold Vt.dispatch
  split
  · exact absurd rfl h
  · rfl

theorem feed_num {u : UEnv} {c : Bool} {v : Vt} (h : v.ps = .ground) (n : Nat) (f : UInt8)
    (hf : 0x3f < f.toNat) : v.feed u c (0x1b :: 0x5b :: decimal n ++ [f]) = v.ansi [n] f.toNat := by
  rw [feed_csi h _ _ (decimal_csi n) hf, dispatch_ansi, csiParams_one]
  obtain ⟨x, l, e, hx⟩ := decimal_head n
  rw [e]
  intro h
  exact hx (Option.some.inj h)

theorem feed_two {u : UEnv} {c : Bool} {v : Vt} (h : v.ps = .ground) (m n : Nat) (f : UInt8)
    (hf : 0x3f < f.toNat) :
    v.feed u c (0x1b :: 0x5b :: (decimal m ++ 59 :: decimal n) ++ [f]) = v.ansi [m, n] f.toNat := by
  rw [feed_csi h _ _ ?_ hf, dispatch_ansi, csiParams_two]
  · obtain ⟨x, l, e, hx⟩ := decimal_head m
    rw [e]
    intro h
    exact hx (Option.some.inj h)
  · intro x hx
    rcases List.mem_append.1 hx with hx | hx
    · exact decimal_csi m x hx
    · rcases List.mem_cons.1 hx with rfl | hx
      · decide
      · exact decimal_csi n x hx

/-! ## Refinement -/

/-- What a cell of the abstract terminal says of a cell of this one: a torn cell says that there is no
half of a two-column character. -/
def Sim (a b : TCell) : Prop := a = b ∨ (a = .torn ∧ b ≠ .right ∧ ∀ x d, b ≠ .left x d)

theorem Sim.rfl' (a : TCell) : Sim a a := Or.inl rfl

theorem Sim.of_ne {a b : TCell} (h : Sim a b) (ha : a ≠ .torn) : b = a :=
  h.elim Eq.symm fun h => absurd h.1 ha

/-- The terminal refines the abstract one. -/
structure Refines (fill : DevAttrs → DevAttrs) (v : Vt) (e : Emu) : Prop where
  ready : v.Ready
  size : v.t.size = e.t.size
  cell : ∀ q, InBounds q v.t.size → Sim (e.t.cell q) (v.t.cell q)
  cur : ∀ p, e.t.cur = some p → v.t.cur = some p ∧ v.wrap = false
  last : ∀ p, e.t.last = some p → v.t.last = some p
  attrs : v.t.attrs = e.t.attrs
  visible : v.visible = e.visible
  fill : v.fill = fill

theorem cut_cell_sim {z : Size} {a b : Term} (h : ∀ q, InBounds q z → Sim (a.cell q) (b.cell q))
    {p : Cursor} (hp : InBounds p z) :
    ∀ q, InBounds q z → Sim ((a.cut p).cell q) ((b.cut p).cell q) := by
  intro q hq
  unfold Term.cut
  rcases h p hp with e | ⟨e, h1, h2⟩
  · rw [← e]
    cases a.cell p with
    | narrow x d => exact h q hq
    | torn => exact h q hq
    | left x d =>
      simp only [Term.set]
      split
      · exact .inl rfl
      · exact h q hq
    | right =>
      simp only [Term.set]
      split
      · exact .inl rfl
      · exact h q hq
  · rw [e]
    cases hb : b.cell p with
    | narrow x d => exact h q hq
    | torn => exact h q hq
    | left x d => exact absurd hb (h2 x d)
    | right => exact absurd hb h1

theorem set_cell_sim {z : Size} {a b : Term} (h : ∀ q, InBounds q z → Sim (a.cell q) (b.cell q))
    (p : Cursor) (c : TCell) :
    ∀ q, InBounds q z → Sim ((a.set p c).cell q) ((b.set p c).cell q) := by
  intro q hq
  simp only [Term.set]
  split
  · exact .inl rfl
  · exact h q hq

theorem erase_cell_sim {z : Size} {a b : Term} (h : ∀ q, InBounds q z → Sim (a.cell q) (b.cell q))
    (R : Cursor → Prop) [DecidablePred R] (d : DevAttrs) :
    ∀ q, InBounds q z → Sim ((a.erase R d).cell q) ((b.erase R d).cell q) := by
  intro q hq
  simp only [Term.erase]
  split
  · exact .inl rfl
  · rcases h q hq with e | ⟨e, h1, h2⟩
    · rw [e]; exact .inl rfl
    · rw [e]
      cases hb : b.cell q with
      | narrow x d => exact .inr ⟨rfl, by simp, by simp⟩
      | torn => exact .inl rfl
      | left x d => exact absurd hb (h2 x d)
      | right => exact absurd hb h1

theorem vcut_size (t : Term) (p : Cursor) : (t.cut p).size = t.size := by
  unfold Term.cut; split <;> rfl
theorem vcut_attrs (t : Term) (p : Cursor) : (t.cut p).attrs = t.attrs := by
  unfold Term.cut; split <;> rfl
theorem vcut_bce (t : Term) (p : Cursor) : (t.cut p).bce = t.bce := by
  unfold Term.cut; split <;> rfl

theorem ready_pos {v : Vt} (h : v.Ready) : v.t.cur = some v.pos ∧ InBounds v.pos v.t.size := by
  obtain ⟨p, h1, h2⟩ := h.cur
  have : v.pos = p := by rw [Vt.pos, h1]; rfl
  rw [this]
  exact ⟨h1, h2⟩

theorem Refines.pos {fill : DevAttrs → DevAttrs} {v : Vt} {e : Emu} (h : Refines fill v e) {p : Cursor}
    (hp : e.t.cur = some p) : v.pos = p ∧ v.wrap = false ∧ InBounds p v.t.size := by
  obtain ⟨h1, h2⟩ := h.cur p hp
  obtain ⟨h3, h4⟩ := ready_pos h.ready
  have : v.pos = p := by rw [h1] at h3; exact (Option.some.inj h3).symm
  exact ⟨this, h2, this ▸ h4⟩

theorem goto_refines {fill : DevAttrs → DevAttrs} {v : Vt} {e : Emu} (h : Refines fill v e) (p : Cursor)
    (hp : InBounds p v.t.size) : Refines fill (v.goto p) { e with t := e.t.goto p } where
  ready := ⟨h.ready.size, ⟨p, rfl, hp⟩, fun q hq => (by cases hq), h.ready.ground⟩
  size := h.size
  cell := h.cell
  cur := fun q hq => ⟨hq, rfl⟩
  last := fun q hq => by cases hq
  attrs := h.attrs
  visible := h.visible
  fill := h.fill

theorem erase_refines {fill : DevAttrs → DevAttrs} {v : Vt} {e : Emu} (h : Refines fill v e)
    (R : Cursor → Prop) [DecidablePred R] :
    Refines fill (v.erase R) { e with t := e.t.erase R (fill e.t.attrs) } where
  ready := ⟨h.ready.size, h.ready.cur, h.ready.last, h.ready.ground⟩
  size := h.size
  cell := by
    have := erase_cell_sim h.cell R (fill e.t.attrs)
    unfold Vt.erase
    rw [h.fill, h.attrs]
    exact this
  cur := h.cur
  last := h.last
  attrs := h.attrs
  visible := h.visible
  fill := h.fill

theorem newline_refines {fill : DevAttrs → DevAttrs} {v : Vt} {e : Emu} (h : Refines fill v e)
    {p : Cursor} (hp : e.t.cur = some p) (crlf : Bool) (hm : v.FullMargins) :
    Refines fill (if crlf then v.cr.index else v.index)
      { e with t := e.t.newline crlf (fill e.t.attrs) p } := by
  obtain ⟨h1, h2, h3⟩ := h.pos hp
  have key : ∀ (w : Vt) (f : Emu) (c : Nat), Refines fill w f → f.t.cur = some ⟨p.line, c⟩ →
      p.line < w.t.size.lines → c < w.t.size.columns → w.t.size = v.t.size → w.bottom = v.bottom → w.top = v.top →
      f.t.size = e.t.size → f.t.cell = e.t.cell → f.t.attrs = e.t.attrs → f.visible = e.visible →
      f.t.bce = e.t.bce →
      (∀ d, (e.t.newline crlf d p) = { f.t with
        last := none
        cur := some (if p.line + 1 < e.t.size.lines then ⟨p.line + 1, c⟩ else ⟨p.line, c⟩)
        cell := if p.line + 1 < e.t.size.lines then e.t.cell else fun q =>
          if q.line + 1 < e.t.size.lines then e.t.cell ⟨q.line + 1, q.column⟩ else .narrow [' '] d }) →
      Refines fill w.index { e with t := e.t.newline crlf (fill e.t.attrs) p } := by
    intro w f c hw hf hl hc hz hbo hto hfz hfc hfa hfv hfb hn
    obtain ⟨k1, k2, k3⟩ := hw.pos hf
    rw [hn]
    unfold Vt.index
    rw [k1]
    dsimp only
    have hl' : e.t.size.lines = w.t.size.lines := by rw [← hfz, ← hw.size]
    have hb' : w.bottom = w.t.size.lines - 1 := by rw [hbo, hz]; exact hm.2
    have ht' : w.top = 0 := hto.trans hm.1
    by_cases hb : p.line = w.bottom
    · rw [if_pos hb, if_neg (by omega), if_neg (by omega)]
      refine ⟨⟨hw.ready.size, ⟨_, rfl, k3⟩, fun q hq => (by cases hq), hw.ready.ground⟩, hw.size, ?_, fun q hq => ⟨hq, rfl⟩, fun q hq => (by cases hq), hw.attrs, ?_,
        hw.fill⟩
      · intro q hq
        dsimp only
        rw [ht']
        have hq1 : q.line < w.t.size.lines := hq.1
        by_cases hql : q.line + 1 < e.t.size.lines
        · rw [if_pos hql, if_pos ⟨Nat.zero_le _, by omega⟩, ← hfc]
          exact hw.cell _ ⟨show q.line + 1 < w.t.size.lines by omega, hq.2⟩
        · rw [if_neg hql, if_neg (by omega), if_pos (by omega), hw.fill, hw.attrs, hfa]
          exact .inl rfl
      · rw [hw.visible, hfv]
    · rw [if_neg hb, if_pos (by omega), if_pos (by omega)]
      have hm : min (p.line + 1) (w.t.size.lines - 1) = p.line + 1 := by omega
      rw [hm]
      have hib : InBounds ⟨p.line + 1, c⟩ w.t.size :=
        ⟨show p.line + 1 < w.t.size.lines by omega, hc⟩
      refine ⟨⟨hw.ready.size, ⟨_, rfl, hib⟩, fun q hq => (by cases hq), hw.ready.ground⟩, hw.size, ?_, fun q hq => ⟨hq, rfl⟩, fun q hq => (by cases hq), hw.attrs, ?_,
        hw.fill⟩
      · intro q hq
        rw [← hfc]
        exact hw.cell q hq
      · rw [← hfv]; exact hw.visible
  cases crlf with
  | false =>
    refine key v e p.column h hp h3.1 h3.2 rfl rfl rfl rfl rfl rfl rfl rfl fun d => ?_
    unfold Term.newline
    dsimp only
    split <;> rfl
  | true =>
    have h0 : InBounds ⟨v.pos.line, 0⟩ v.t.size := by
      rw [h1]; exact ⟨h3.1, h.ready.size.2.1⟩
    have hg := goto_refines h ⟨v.pos.line, 0⟩ h0
    refine key v.cr { e with t := e.t.goto ⟨v.pos.line, 0⟩ } 0 hg (by rw [h1]; rfl) h3.1
      h.ready.size.2.1 rfl rfl rfl rfl rfl rfl rfl rfl fun d => ?_
    unfold Term.newline
    dsimp only
    split <;> rfl

theorem putWide_refines {fill : DevAttrs → DevAttrs} {v : Vt} {e : Emu} (h : Refines fill v e)
    {p : Cursor} (hp : e.t.cur = some p) (ch : Char) :
    Refines fill (v.putWide ch false) { e with t :=
      { (e.t.cut p).set p (.narrow [ch] e.t.attrs) with cur := e.t.advance p 1, last := some p } } ∧
    (p.column + 1 < e.t.size.columns →
      Refines fill (v.putWide ch true) { e with t :=
        { (((e.t.cut p).cut ⟨p.line, p.column + 1⟩).set p (.left [ch] e.t.attrs)).set
            ⟨p.line, p.column + 1⟩ .right with cur := e.t.advance p 2, last := some p } }) := by
  obtain ⟨h1, h2, h3⟩ := h.pos hp
  have hz := h.size
  have hcol : p.column < v.t.size.columns := h3.2
  constructor
  · have hcell := set_cell_sim (cut_cell_sim h.cell h3) p (.narrow [ch] e.t.attrs)
    unfold Vt.putWide
    rw [h1]
    simp only [Bool.false_eq_true, if_false]
    by_cases hc : p.column + 1 < v.t.size.columns
    · rw [if_pos hc]
      have ha : e.t.advance p 1 = some ⟨p.line, p.column + 1⟩ := by
        unfold Term.advance; rw [← hz, if_pos hc]
      rw [ha, h.attrs]
      refine ⟨⟨?_, ⟨_, rfl, ?_⟩, ?_, h.ready.ground⟩, ?_, ?_, fun q hq => ⟨hq, rfl⟩,
        fun q hq => hq, ?_, h.visible, ?_⟩
      · show GoodSize (v.t.cut p).size
        rw [vcut_size]; exact h.ready.size
      · show InBounds _ (v.t.cut p).size
        rw [vcut_size]; exact ⟨h3.1, hc⟩
      · rintro q ⟨⟩
        show InBounds _ (v.t.cut p).size
        rw [vcut_size]; exact h3
      · show (v.t.cut p).size = (e.t.cut p).size
        rw [vcut_size, vcut_size]; exact hz
      · show ∀ q, InBounds q (v.t.cut p).size → _
        rw [vcut_size]; exact hcell
      · show (v.t.cut p).attrs = (e.t.cut p).attrs
        rw [vcut_attrs, vcut_attrs]; exact h.attrs
      · rw [← h.fill]
        funext d
        simp only [Vt.fill]
        rw [show ((v.t.cut p).set p (TCell.narrow [ch] e.t.attrs)).bce = v.t.bce from vcut_bce _ _]
    · rw [if_neg hc]
      have ha : e.t.advance p 1 = none := by
        unfold Term.advance; rw [← hz, if_neg hc]
      rw [ha, h.attrs]
      refine ⟨⟨?_, ⟨_, rfl, ?_⟩, ?_, h.ready.ground⟩, ?_, ?_, fun q hq => (by cases hq),
        fun q hq => hq, ?_, h.visible, ?_⟩
      · show GoodSize (v.t.cut p).size
        rw [vcut_size]; exact h.ready.size
      · show InBounds _ (v.t.cut p).size
        rw [vcut_size]
        exact ⟨h3.1, show v.t.size.columns - 1 < v.t.size.columns by omega⟩
      · rintro q ⟨⟩
        show InBounds _ (v.t.cut p).size
        rw [vcut_size]; exact h3
      · show (v.t.cut p).size = (e.t.cut p).size
        rw [vcut_size, vcut_size]; exact hz
      · show ∀ q, InBounds q (v.t.cut p).size → _
        rw [vcut_size]; exact hcell
      · show (v.t.cut p).attrs = (e.t.cut p).attrs
        rw [vcut_attrs, vcut_attrs]; exact h.attrs
      · rw [← h.fill]
        funext d
        simp only [Vt.fill]
        rw [show ((v.t.cut p).set p (TCell.narrow [ch] e.t.attrs)).bce = v.t.bce from vcut_bce _ _]
  · intro hw
    have hq3 : InBounds ⟨p.line, p.column + 1⟩ v.t.size := ⟨h3.1, by rw [hz]; exact hw⟩
    have hcell := set_cell_sim (set_cell_sim (cut_cell_sim (cut_cell_sim h.cell h3) hq3) p
      (.left [ch] e.t.attrs)) ⟨p.line, p.column + 1⟩ .right
    have es : ∀ t : Term, (((t.cut p).cut ⟨p.line, p.column + 1⟩)).size = t.size := fun t => by
      rw [vcut_size, vcut_size]
    have ea : ∀ t : Term, (((t.cut p).cut ⟨p.line, p.column + 1⟩)).attrs = t.attrs := fun t => by
      rw [vcut_attrs, vcut_attrs]
    have eb : ∀ t : Term, (((t.cut p).cut ⟨p.line, p.column + 1⟩)).bce = t.bce := fun t => by
      rw [vcut_bce, vcut_bce]
    unfold Vt.putWide
    rw [h1]
    simp only [if_true]
    by_cases hc : p.column + 2 < v.t.size.columns
    · rw [if_pos hc]
      have ha : e.t.advance p 2 = some ⟨p.line, p.column + 2⟩ := by
        unfold Term.advance; rw [← hz, if_pos hc]
      rw [ha, h.attrs]
      refine ⟨⟨?_, ⟨_, rfl, ?_⟩, ?_, h.ready.ground⟩, ?_, ?_, fun q hq => ⟨hq, rfl⟩,
        fun q hq => hq, ?_, h.visible, ?_⟩
      · show GoodSize ((v.t.cut p).cut ⟨p.line, p.column + 1⟩).size
        rw [es]; exact h.ready.size
      · show InBounds _ ((v.t.cut p).cut ⟨p.line, p.column + 1⟩).size
        rw [es]; exact ⟨h3.1, hc⟩
      · rintro q ⟨⟩
        show InBounds _ ((v.t.cut p).cut ⟨p.line, p.column + 1⟩).size
        rw [es]; exact h3
      · show ((v.t.cut p).cut ⟨p.line, p.column + 1⟩).size = ((e.t.cut p).cut ⟨p.line, p.column + 1⟩).size
        rw [es, es]; exact hz
      · show ∀ q, InBounds q ((v.t.cut p).cut ⟨p.line, p.column + 1⟩).size → _
        rw [es]; exact hcell
      · show ((v.t.cut p).cut ⟨p.line, p.column + 1⟩).attrs = ((e.t.cut p).cut ⟨p.line, p.column + 1⟩).attrs
        rw [ea, ea]; exact h.attrs
      · rw [← h.fill]
        funext d
        simp only [Vt.fill]
        rw [show ((((v.t.cut p).cut ⟨p.line, p.column + 1⟩).set p (TCell.left [ch] e.t.attrs)).set
          ⟨p.line, p.column + 1⟩ .right).bce = v.t.bce from eb _]
    · rw [if_neg hc]
      have ha : e.t.advance p 2 = none := by
        unfold Term.advance; rw [← hz, if_neg hc]
      rw [ha, h.attrs]
      refine ⟨⟨?_, ⟨_, rfl, ?_⟩, ?_, h.ready.ground⟩, ?_, ?_, fun q hq => (by cases hq),
        fun q hq => hq, ?_, h.visible, ?_⟩
      · show GoodSize ((v.t.cut p).cut ⟨p.line, p.column + 1⟩).size
        rw [es]; exact h.ready.size
      · show InBounds _ ((v.t.cut p).cut ⟨p.line, p.column + 1⟩).size
        rw [es]
        exact ⟨h3.1, show v.t.size.columns - 1 < v.t.size.columns by omega⟩
      · rintro q ⟨⟩
        show InBounds _ ((v.t.cut p).cut ⟨p.line, p.column + 1⟩).size
        rw [es]; exact h3
      · show ((v.t.cut p).cut ⟨p.line, p.column + 1⟩).size = ((e.t.cut p).cut ⟨p.line, p.column + 1⟩).size
        rw [es, es]; exact hz
      · show ∀ q, InBounds q ((v.t.cut p).cut ⟨p.line, p.column + 1⟩).size → _
        rw [es]; exact hcell
      · show ((v.t.cut p).cut ⟨p.line, p.column + 1⟩).attrs = ((e.t.cut p).cut ⟨p.line, p.column + 1⟩).attrs
        rw [ea, ea]; exact h.attrs
      · rw [← h.fill]
        funext d
        simp only [Vt.fill]
        rw [show ((((v.t.cut p).cut ⟨p.line, p.column + 1⟩).set p (TCell.left [ch] e.t.attrs)).set
          ⟨p.line, p.column + 1⟩ .right).bce = v.t.bce from eb _]

theorem join_refines {fill : DevAttrs → DevAttrs} {v : Vt} {e : Emu} (h : Refines fill v e) (u : UEnv)
    (ch : Char) (hc : ¬ Control ch) (hw : u.w ch = 0) {t : Term} (ht : e.t.putChar u ch = some t) :
    Refines fill (v.join ch) { e with t := t } := by
  unfold Term.putChar at ht
  rw [if_neg hc, if_pos hw] at ht
  cases hl : e.t.last with
  | none => rw [hl] at ht; cases ht
  | some p =>
    rw [hl] at ht
    dsimp only at ht
    have hl' := h.last p hl
    have hib := h.ready.last p hl'
    have key : ∀ c : TCell, Refines fill { v with t := v.t.set p c } { e with t := e.t.set p c } := fun c =>
      ⟨⟨h.ready.size, h.ready.cur, h.ready.last, h.ready.ground⟩, h.size,
        set_cell_sim h.cell p c, h.cur, h.last, h.attrs, h.visible, h.fill⟩
    unfold Vt.join
    rw [hl']
    dsimp only
    have hs := h.cell p hib
    cases hce : e.t.cell p with
    | narrow x d =>
      rw [hce] at ht hs
      rw [hs.of_ne (by simp)]
      cases ht
      exact key _
    | left x d =>
      rw [hce] at ht hs
      rw [hs.of_ne (by simp)]
      cases ht
      exact key _
    | right => rw [hce] at ht; cases ht
    | torn => rw [hce] at ht; cases ht

/-- A character that is shown. -/
theorem putChar_refines {fill : DevAttrs → DevAttrs} {v : Vt} {e : Emu} (h : Refines fill v e) (u : UEnv)
    (crlf : Bool) (ch : Char) {t : Term} (ht : e.t.putChar u ch = some t) :
    Refines fill (v.char u crlf ch) { e with t := t } := by
  have hc : ¬ Control ch := by
    intro hc
    unfold Term.putChar at ht
    rw [if_pos hc] at ht
    cases ht
  unfold Vt.char
  rw [if_neg hc]
  unfold Vt.print
  by_cases hw : u.w ch = 0
  · rw [if_pos hw]
    exact join_refines h u ch hc hw ht
  · rw [if_neg hw]
    unfold Term.putChar at ht
    rw [if_neg hc, if_neg hw] at ht
    cases hp : e.t.cur with
    | none => rw [hp] at ht; cases ht
    | some p =>
      rw [hp] at ht
      dsimp only at ht
      obtain ⟨k1, k2, k3⟩ := h.pos hp
      obtain ⟨r1, r2⟩ := putWide_refines h hp ch
      by_cases hw1 : u.w ch = 1
      · rw [if_pos hw1] at ht
        cases ht
        rw [hw1, k2]
        exact r1
      · rw [if_neg hw1] at ht
        by_cases hw2 : u.w ch = 2 ∧ p.column + 1 < e.t.size.columns
        · rw [if_pos hw2] at ht
          cases ht
          have hfull : ¬ v.t.size.columns < p.column + 2 := by
            rw [h.size]; omega
          simp only [hw2.1, k1, k2, Nat.le_refl, decide_true, Bool.false_or, Bool.true_and,
            hfull, decide_false, Bool.false_eq_true, if_false]
          exact r2 hw2.2
        · rw [if_neg hw2] at ht; cases ht

/-- One character. -/
theorem char_refines {fill : DevAttrs → DevAttrs} {v : Vt} {e : Emu} (h : Refines fill v e) (u : UEnv)
    (crlf : Bool) (hm : v.FullMargins) (ch : Char) {t : Term} (ht : e.t.typed u crlf fill ch = some t) :
    Refines fill (v.char u crlf ch) { e with t := t } := by
  unfold Term.typed at ht
  by_cases h1 : ch = '\r'
  · rw [if_pos h1] at ht
    subst h1
    obtain ⟨p, hp, rfl⟩ := Option.map_eq_some_iff.1 ht
    obtain ⟨k1, k2, k3⟩ := h.pos hp
    have : v.char u crlf '\r' = v.goto ⟨v.pos.line, 0⟩ := rfl
    rw [this, k1]
    exact goto_refines h _ ⟨k3.1, h.ready.size.2.1⟩
  · rw [if_neg h1] at ht
    by_cases h2 : ch = '\n'
    · rw [if_pos h2] at ht
      subst h2
      obtain ⟨p, hp, rfl⟩ := Option.map_eq_some_iff.1 ht
      have : v.char u crlf '\n' = if crlf then v.cr.index else v.index := rfl
      rw [this]
      exact newline_refines h hp crlf hm
    · rw [if_neg h2] at ht
      exact putChar_refines h u crlf ch ht

/-! ## What stays -/

/-- What is left alone by everything but mode 1049 and changes of the margins. -/
structure VFrame (v v' : Vt) : Prop where
  size : v'.t.size = v.t.size
  bce : v'.t.bce = v.t.bce
  top : v'.top = v.top
  bottom : v'.bottom = v.bottom
  alt : v'.alt = v.alt
  other : v'.other = v.other
  saved : v'.saved = v.saved
  ps : v'.ps = v.ps

theorem VFrame.refl (v : Vt) : VFrame v v := ⟨rfl, rfl, rfl, rfl, rfl, rfl, rfl, rfl⟩

theorem VFrame.trans {a b c : Vt} (h : VFrame a b) (k : VFrame b c) : VFrame a c :=
  ⟨k.size.trans h.size, k.bce.trans h.bce, k.top.trans h.top, k.bottom.trans h.bottom, k.alt.trans h.alt,
    k.other.trans h.other, k.saved.trans h.saved, k.ps.trans h.ps⟩

theorem VFrame.margins {v v' : Vt} (h : VFrame v v') (hm : v.FullMargins) : v'.FullMargins :=
  ⟨h.top.trans hm.1, by rw [h.bottom, h.size]; exact hm.2⟩

theorem frame_goto (v : Vt) (p : Cursor) : VFrame v (v.goto p) := ⟨rfl, rfl, rfl, rfl, rfl, rfl, rfl, rfl⟩

theorem frame_index (v : Vt) : VFrame v v.index := by
  unfold Vt.index
  dsimp only
  split
  · exact ⟨rfl, rfl, rfl, rfl, rfl, rfl, rfl, rfl⟩
  · exact frame_goto _ _

theorem frame_cr (v : Vt) : VFrame v v.cr := frame_goto _ _

theorem frame_erase (v : Vt) (R : Cursor → Prop) [DecidablePred R] : VFrame v (v.erase R) :=
  ⟨rfl, rfl, rfl, rfl, rfl, rfl, rfl, rfl⟩

theorem frame_putWide (v : Vt) (ch : Char) (w : Bool) : VFrame v (v.putWide ch w) := by
  have e1 : ∀ (t : Term) (p q : Cursor), ((t.cut p).cut q).size = t.size := fun t p q => by
    rw [vcut_size, vcut_size]
  have e2 : ∀ (t : Term) (p q : Cursor), ((t.cut p).cut q).bce = t.bce := fun t p q => by
    rw [vcut_bce, vcut_bce]
  unfold Vt.putWide
  cases w
  · simp only [Bool.false_eq_true, if_false]
    split
    · exact ⟨vcut_size v.t v.pos, vcut_bce v.t v.pos, rfl, rfl, rfl, rfl, rfl, rfl⟩
    · exact ⟨vcut_size v.t v.pos, vcut_bce v.t v.pos, rfl, rfl, rfl, rfl, rfl, rfl⟩
  · simp only [if_true]
    split
    · exact ⟨e1 _ _ _, e2 _ _ _, rfl, rfl, rfl, rfl, rfl, rfl⟩
    · exact ⟨e1 _ _ _, e2 _ _ _, rfl, rfl, rfl, rfl, rfl, rfl⟩

theorem frame_join (v : Vt) (ch : Char) : VFrame v (v.join ch) := by
  unfold Vt.join
  split
  · exact VFrame.refl v
  · split
    · exact ⟨rfl, rfl, rfl, rfl, rfl, rfl, rfl, rfl⟩
    · exact ⟨rfl, rfl, rfl, rfl, rfl, rfl, rfl, rfl⟩
    · exact VFrame.refl v

theorem frame_char (u : UEnv) (crlf : Bool) (v : Vt) (ch : Char) : VFrame v (v.char u crlf ch) := by
  unfold Vt.char
  split
  · unfold Vt.control
    split
    · exact frame_cr v
    · split
      · split
        · exact (frame_cr v).trans (frame_index _)
        · exact frame_index v
      · split
        · exact frame_goto _ _
        · split
          · exact frame_goto _ _
          · exact VFrame.refl v
  · unfold Vt.print
    split
    · exact frame_join v ch
    · dsimp only
      split
      · exact ((frame_cr v).trans (frame_index _)).trans (frame_putWide _ _ _)
      · exact frame_putWide _ _ _

theorem frame_text {u : UEnv} {crlf : Bool} : ∀ (s : List Char) {v : Vt}, v.ps = .ground →
    (∀ ch ∈ s, ch.toNat ≠ 27) → VFrame v (v.feed u crlf (encode s)) := by
  intro s
  induction s with
  | nil => intro v _ _; exact VFrame.refl v
  | cons ch s ih =>
    intro v h hs
    rw [encode_cons, vfeed_append, feed_char h ch (hs ch List.mem_cons_self)]
    have f := frame_char u crlf v ch
    exact f.trans (ih (f.ps.trans h) fun c hc => hs c (List.mem_cons_of_mem _ hc))

theorem ready_goto {v : Vt} (h : v.Ready) {p : Cursor} (hp : InBounds p v.t.size) : (v.goto p).Ready :=
  ⟨h.size, ⟨p, rfl, hp⟩, fun q hq => (by cases hq), h.ground⟩

theorem ready_index {v : Vt} (h : v.Ready) : v.index.Ready := by
  obtain ⟨h1, h2⟩ := ready_pos h
  unfold Vt.index
  dsimp only
  split
  · exact ⟨h.size, ⟨_, rfl, h2⟩, fun q hq => (by cases hq), h.ground⟩
  · have : v.pos.line < v.t.size.lines := h2.1
    exact ready_goto h ⟨show min (v.pos.line + 1) (v.t.size.lines - 1) < v.t.size.lines by omega, h2.2⟩

theorem ready_cr {v : Vt} (h : v.Ready) : v.cr.Ready :=
  ready_goto h ⟨(ready_pos h).2.1, h.size.2.1⟩

theorem ready_putWide {v : Vt} (h : v.Ready) (ch : Char) (w : Bool) : (v.putWide ch w).Ready := by
  have f := frame_putWide v ch w
  have hp := (ready_pos h).2
  have hpl : v.pos.line < v.t.size.lines := hp.1
  have hpc : v.pos.column < v.t.size.columns := hp.2
  refine ⟨by rw [f.size]; exact h.size, ?_, ?_, by rw [f.ps]; exact h.ground⟩
  · rw [f.size]
    unfold Vt.putWide
    by_cases hc : v.pos.column + (if w = true then 2 else 1) < v.t.size.columns
    · dsimp only
      rw [if_pos hc]
      exact ⟨_, rfl, hpl, hc⟩
    · dsimp only
      rw [if_neg hc]
      exact ⟨_, rfl, hpl, show v.t.size.columns - 1 < v.t.size.columns by omega⟩
  · rw [f.size]
    intro q hq
    have : (v.putWide ch w).t.last = some v.pos := by
      unfold Vt.putWide
      by_cases hc : v.pos.column + (if w = true then 2 else 1) < v.t.size.columns
      · dsimp only
        rw [if_pos hc]
      · dsimp only
        rw [if_neg hc]
    rw [this] at hq
    cases hq
    exact hp

theorem ready_join {v : Vt} (h : v.Ready) (ch : Char) : (v.join ch).Ready := by
  unfold Vt.join
  split
  · exact h
  · split
    · exact ⟨h.size, h.cur, h.last, h.ground⟩
    · exact ⟨h.size, h.cur, h.last, h.ground⟩
    · exact h

theorem ready_char {u : UEnv} {crlf : Bool} {v : Vt} (h : v.Ready) (ch : Char) :
    (v.char u crlf ch).Ready := by
  have hp := (ready_pos h).2
  have hpc : v.pos.column < v.t.size.columns := hp.2
  unfold Vt.char
  split
  · unfold Vt.control
    split
    · exact ready_cr h
    · split
      · split
        · exact ready_index (ready_cr h)
        · exact ready_index h
      · split
        · exact ready_goto h ⟨hp.1, show v.pos.column - 1 < v.t.size.columns by omega⟩
        · split
          · exact ready_goto h ⟨hp.1, show min ((v.pos.column / 8 + 1) * 8) (v.t.size.columns - 1) <
              v.t.size.columns by omega⟩
          · exact h
  · unfold Vt.print
    split
    · exact ready_join h ch
    · dsimp only
      split
      · exact ready_putWide (ready_index (ready_cr h)) _ _
      · exact ready_putWide h _ _

theorem attrs_putWide (v : Vt) (ch : Char) (w : Bool) : (v.putWide ch w).t.attrs = v.t.attrs := by
  have e1 : ∀ (t : Term) (p q : Cursor), ((t.cut p).cut q).attrs = t.attrs := fun t p q => by
    rw [vcut_attrs, vcut_attrs]
  unfold Vt.putWide
  cases w
  · simp only [Bool.false_eq_true, if_false]
    split
    · exact vcut_attrs v.t v.pos
    · exact vcut_attrs v.t v.pos
  · simp only [if_true]
    split
    · exact e1 _ _ _
    · exact e1 _ _ _

theorem attrs_index (v : Vt) : v.index.t.attrs = v.t.attrs := by
  unfold Vt.index
  dsimp only
  split <;> rfl

theorem attrs_char (u : UEnv) (crlf : Bool) (v : Vt) (ch : Char) :
    (v.char u crlf ch).t.attrs = v.t.attrs := by
  unfold Vt.char
  split
  · unfold Vt.control
    split
    · rfl
    · split
      · split
        · exact attrs_index _
        · exact attrs_index _
      · split
        · rfl
        · split <;> rfl
  · unfold Vt.print
    split
    · unfold Vt.join
      split
      · rfl
      · split <;> rfl
    · dsimp only
      split
      · rw [attrs_putWide, attrs_index]; rfl
      · exact attrs_putWide _ _ _

theorem ready_text {u : UEnv} {crlf : Bool} : ∀ (s : List Char) {v : Vt}, v.Ready →
    (∀ ch ∈ s, ch.toNat ≠ 27) → (v.feed u crlf (encode s)).Ready ∧
      (v.feed u crlf (encode s)).t.attrs = v.t.attrs := by
  intro s
  induction s with
  | nil => intro v h _; exact ⟨h, rfl⟩
  | cons ch s ih =>
    intro v h hs
    rw [encode_cons, vfeed_append, feed_char h.ground ch (hs ch List.mem_cons_self)]
    obtain ⟨a, b⟩ := ih (ready_char (u := u) (crlf := crlf) h ch)
      fun c hc => hs c (List.mem_cons_of_mem _ hc)
    exact ⟨a, b.trans (attrs_char ..)⟩

/-- Text, in bytes. -/
theorem text_refines {fill : DevAttrs → DevAttrs} (u : UEnv) (crlf : Bool) : ∀ (s : List Char) {v : Vt}
    {e : Emu} {t : Term}, Refines fill v e → v.FullMargins → e.t.typeText u crlf fill s = some t →
    Refines fill (v.feed u crlf (encode s)) { e with t := t } ∧ ∀ ch ∈ s, ch.toNat ≠ 27 := by
  intro s
  induction s with
  | nil =>
    intro v e t h hm ht
    cases ht
    exact ⟨h, by simp⟩
  | cons ch s ih =>
    intro v e t h hm ht
    rw [Term.typeText] at ht
    obtain ⟨t1, h1, h2⟩ := Option.bind_eq_some_iff.1 ht
    have hne : ch.toNat ≠ 27 := by
      intro he
      unfold Term.typed at h1
      rw [if_neg (by rintro rfl; exact absurd he (by decide)),
        if_neg (by rintro rfl; exact absurd he (by decide))] at h1
      unfold Term.putChar at h1
      rw [if_pos (show Control ch from Or.inl (by omega))] at h1
      cases h1
    rw [encode_cons, vfeed_append, feed_char h.ready.ground ch hne]
    obtain ⟨r1, r2⟩ := ih (e := { e with t := t1 }) (char_refines h u crlf hm ch h1)
      ((frame_char u crlf v ch).margins hm) h2
    exact ⟨r1, fun c hc => by
      rcases List.mem_cons.1 hc with rfl | hc
      · exact hne
      · exact r2 c hc⟩

/-- Text without control characters, in bytes. -/
theorem putText_refines {fill : DevAttrs → DevAttrs} (u : UEnv) (crlf : Bool) : ∀ (s : List Char) {v : Vt}
    {e : Emu} {t : Term}, Refines fill v e → e.t.putText u s = some t →
    Refines fill (v.feed u crlf (encode s)) { e with t := t } ∧ ∀ ch ∈ s, ch.toNat ≠ 27 := by
  intro s
  induction s with
  | nil =>
    intro v e t h ht
    cases ht
    exact ⟨h, by simp⟩
  | cons ch s ih =>
    intro v e t h ht
    rw [Term.putText] at ht
    obtain ⟨t1, h1, h2⟩ := Option.bind_eq_some_iff.1 ht
    have hne : ch.toNat ≠ 27 := by
      intro he
      unfold Term.putChar at h1
      rw [if_pos (show Control ch from Or.inl (by omega))] at h1
      cases h1
    rw [encode_cons, vfeed_append, feed_char h.ready.ground ch hne]
    obtain ⟨r1, r2⟩ := ih (e := { e with t := t1 }) (putChar_refines h u crlf ch h1) h2
    exact ⟨r1, fun c hc => by
      rcases List.mem_cons.1 hc with rfl | hc
      · exact hne
      · exact r2 c hc⟩

/-! ## Commands -/

theorem setMode_refines {fill : DevAttrs → DevAttrs} {v : Vt} {e : Emu} (h : Refines fill v e) (on : Bool)
    (n : Nat) (h1 : n ≠ 25) (h2 : n ≠ 1049) : Refines fill (v.setMode on n) e := by
  unfold Vt.setMode
  rw [if_neg h1, if_neg h2]
  exact ⟨⟨h.ready.size, h.ready.cur, h.ready.last, h.ready.ground⟩, h.size,
    h.cell, h.cur, h.last, h.attrs, h.visible, h.fill⟩

theorem setMode_ground (on : Bool) (v : Vt) (n : Nat) : (v.setMode on n).ps = v.ps := by
  unfold Vt.setMode Vt.toAlternate Vt.fromAlternate
  split
  · rfl
  · split
    · split
      · dsimp only; split <;> rfl
      · dsimp only; split <;> rfl
    · rfl

theorem attrs_refines {fill : DevAttrs → DevAttrs} {v : Vt} {e : Emu} (h : Refines fill v e)
    (f : DevAttrs → DevAttrs) :
    Refines fill { v with t := { v.t with attrs := f v.t.attrs } }
      { e with t := { e.t with attrs := f e.t.attrs } } :=
  ⟨⟨h.ready.size, h.ready.cur, h.ready.last, h.ready.ground⟩, h.size,
    h.cell, h.cur, h.last, by rw [← h.attrs], h.visible, h.fill⟩

theorem move_refines {fill : DevAttrs → DevAttrs} {v : Vt} {e e' : Emu} (h : Refines fill v e) (d : Dir)
    (n : Nat) (hn : n ≠ 0) (hm : v.FullMargins) (he : e.move d n = some e') :
    Refines fill (v.ansi [n] (match d with | .up => 0x41 | .down => 0x42 | .right => 0x43 | .left => 0x44))
      e' := by
  unfold Emu.move at he
  obtain ⟨p, hp, rfl⟩ := Option.map_eq_some_iff.1 he
  obtain ⟨k1, k2, k3⟩ := h.pos hp
  have ht := hm.1
  have hb := hm.2
  have hl : p.line < v.t.size.lines := k3.1
  have hc : p.column < v.t.size.columns := k3.2
  have ha : csiArg [n] 0 1 = n := by
    unfold csiArg
    cases n with
    | zero => exact absurd rfl hn
    | succ n => rfl
  have hz := h.size
  cases d with
  | up =>
    have : v.ansi [n] 0x41 = v.goto (e.t.shifted p .up n) := by
      show v.goto _ = _
      rw [k1, ha, ht, if_pos (Nat.zero_le _)]
      simp only [Term.shifted, Nat.max_zero]
    rw [this]
    exact goto_refines h _ ⟨show p.line - n < v.t.size.lines by omega, hc⟩
  | down =>
    have : v.ansi [n] 0x42 = v.goto (e.t.shifted p .down n) := by
      show v.goto _ = _
      rw [k1, ha, hb, if_pos (by omega), Nat.min_self]
      simp only [Term.shifted, hz]
    rw [this]
    refine goto_refines h _ ⟨?_, hc⟩
    simp only [Term.shifted]
    rw [← hz]
    omega
  | left =>
    have : v.ansi [n] 0x44 = v.goto (e.t.shifted p .left n) := by
      show v.goto _ = _
      rw [k1, ha]
      simp only [Term.shifted]
    rw [this]
    exact goto_refines h _ ⟨hl, show p.column - n < v.t.size.columns by omega⟩
  | right =>
    have : v.ansi [n] 0x43 = v.goto (e.t.shifted p .right n) := by
      show v.goto _ = _
      rw [k1, ha]
      simp only [Term.shifted, hz]
    rw [this]
    refine goto_refines h _ ⟨hl, ?_⟩
    simp only [Term.shifted]
    rw [← hz]
    omega

theorem sgr_color (b br n : Nat) (a : DevAttrs) (hb : b = 3 ∧ br = 9 ∨ b = 4 ∧ br = 10) :
    sgr (csiParams ((if n < 8 then decimal b ++ decimal n
      else if n < 16 then decimal br ++ decimal (n - 8)
      else decimal b ++ asc "8;5;" ++ decimal n))) a =
      if b = 3 then { a with fg := some n } else { a with bg := some n } := by
  by_cases h8 : n < 8
  · rw [if_pos h8]
    rcases hb with ⟨rfl, rfl⟩ | ⟨rfl, rfl⟩
    · have : ∀ m : Fin 8, csiParams (decimal 3 ++ decimal m.val) = [30 + m.val] := by decide +kernel
      rw [this ⟨n, h8⟩]
      have : ∀ m : Fin 8, sgr [30 + m.val] a = { a with fg := some m.val } := by
        intro ⟨m, hm⟩
        interval_cases m <;> rfl
      exact this ⟨n, h8⟩
    · have : ∀ m : Fin 8, csiParams (decimal 4 ++ decimal m.val) = [40 + m.val] := by decide +kernel
      rw [this ⟨n, h8⟩]
      have : ∀ m : Fin 8, sgr [40 + m.val] a = { a with bg := some m.val } := by
        intro ⟨m, hm⟩
        interval_cases m <;> rfl
      exact this ⟨n, h8⟩
  · rw [if_neg h8]
    by_cases h16 : n < 16
    · rw [if_pos h16]
      obtain ⟨m, hm, rfl⟩ : ∃ m, m < 8 ∧ n = m + 8 := ⟨n - 8, by omega, by omega⟩
      rw [Nat.add_sub_cancel]
      rcases hb with ⟨rfl, rfl⟩ | ⟨rfl, rfl⟩
      · have : ∀ m : Fin 8, csiParams (decimal 9 ++ decimal m.val) = [90 + m.val] := by decide +kernel
        rw [this ⟨m, hm⟩]
        have : ∀ m : Fin 8, sgr [90 + m.val] a = { a with fg := some (m.val + 8) } := by
          intro ⟨m, hm⟩
          interval_cases m <;> rfl
        exact this ⟨m, hm⟩
      · have : ∀ m : Fin 8, csiParams (decimal 10 ++ decimal m.val) = [100 + m.val] := by decide +kernel
        rw [this ⟨m, hm⟩]
        have : ∀ m : Fin 8, sgr [100 + m.val] a = { a with bg := some (m.val + 8) } := by
          intro ⟨m, hm⟩
          interval_cases m <;> rfl
        exact this ⟨m, hm⟩
    · rw [if_neg h16]
      obtain ⟨d1, d2⟩ := decimal_digits n
      have key : ∀ p : Bytes, ∀ x y : Nat, p.foldl csiNext [0] = [0, 5, x] →
          csiParams (p ++ decimal n) = [x, 5, n] := by
        intro p x y hp
        unfold csiParams
        rw [List.foldl_append, hp, csi_fold_digits _ _ _ d1,
          show List.foldl _ 0 (decimal n) = n from d2]
        rfl
      rcases hb with ⟨rfl, rfl⟩ | ⟨rfl, rfl⟩
      · rw [key (decimal 3 ++ asc "8;5;") 38 0 (by decide +kernel)]
        rfl
      · rw [key (decimal 4 ++ asc "8;5;") 48 0 (by decide +kernel)]
        rfl

end Mortal
