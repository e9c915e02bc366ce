import Verif.Lemmas.BufferText

/-! # Which cells a write can change, and how -/

namespace Mortal
open Spec

/-- `l'` arises from `l` by writing `text`. -/
def Chg (env : UEnv) (fg bg : Option Color) (st : Style) (text : List Char) (l l' : List Cell) :
    Prop :=
  l'.length = l.length ∧ ∀ (i : Nat) (old new : Cell), l[i]? = some old → l'[i]? = some new →
    CellChange env fg bg st text old new

theorem Spec.CellChange.trans {env : UEnv} {fg bg : Option Color} {st : Style} {text : List Char}
    {a b c : Cell} (h1 : CellChange env fg bg st text a b) (h2 : CellChange env fg bg st text b c) :
    CellChange env fg bg st text a c := by
  induction h2 with
  | same => exact h1
  | drawn ch h => exact .drawn ch h
  | blank => exact .blank
  | mark c m _ hm hc ih => exact .mark c m ih hm hc

theorem Spec.CellChange.mono {env : UEnv} {fg bg : Option Color} {st : Style} {t1 t2 : List Char}
    {a b : Cell} (hsub : ∀ c ∈ t1, c ∈ t2) (h1 : CellChange env fg bg st t1 a b) :
    CellChange env fg bg st t2 a b := by
  induction h1 with
  | same => exact .same
  | drawn ch h => exact .drawn ch (h.imp (fun x => ⟨hsub ch x.1, x.2⟩) id)
  | blank => exact .blank
  | mark c m _ hm hc ih => exact .mark c m ih (hsub m hm) hc

theorem Chg.refl {env : UEnv} {fg bg : Option Color} {st : Style} {t : List Char} (l : List Cell) :
    Chg env fg bg st t l l :=
  ⟨rfl, fun i old new h1 h2 => by rw [h1, Option.some.injEq] at h2; exact h2 ▸ .same⟩

theorem Chg.trans {env : UEnv} {fg bg : Option Color} {st : Style} {t : List Char}
    {l1 l2 l3 : List Cell} (h1 : Chg env fg bg st t l1 l2) (h2 : Chg env fg bg st t l2 l3) :
    Chg env fg bg st t l1 l3 := by
  refine ⟨h2.1.trans h1.1, fun i old new ho hn => ?_⟩
  have hlt : i < l2.length := by rw [h1.1]; exact (List.getElem?_eq_some_iff.mp ho).1
  exact (h1.2 i old _ ho (List.getElem?_eq_getElem hlt)).trans
    (h2.2 i _ new (List.getElem?_eq_getElem hlt) hn)

theorem Chg.mono {env : UEnv} {fg bg : Option Color} {st : Style} {t1 t2 : List Char}
    {l l' : List Cell} (hsub : ∀ c ∈ t1, c ∈ t2) (h : Chg env fg bg st t1 l l') :
    Chg env fg bg st t2 l l' :=
  ⟨h.1, fun i old new ho hn => (h.2 i old new ho hn).mono hsub⟩

/-- A buffer after some writing of `text`. -/
structure Wrote (env : UEnv) (text : List Char) (b b' : Buf) : Prop where
  frame : SameFrame b b'
  cells : Chg env b.fg b.bg b.style text b.buffer b'.buffer

theorem Wrote.refl {env : UEnv} {t : List Char} (b : Buf) : Wrote env t b b :=
  ⟨SameFrame.refl b, Chg.refl _⟩

theorem Wrote.trans {env : UEnv} {t : List Char} {a b c : Buf} (h1 : Wrote env t a b)
    (h2 : Wrote env t b c) : Wrote env t a c := by
  obtain ⟨f1, g1⟩ := h1
  obtain ⟨f2, g2⟩ := h2
  refine ⟨SameFrame.trans f1 f2, ?_⟩
  obtain ⟨-, -, e3, e4, e5⟩ := f1
  rw [e3, e4, e5] at g2
  exact g1.trans g2

theorem Wrote.mono {env : UEnv} {t1 t2 : List Char} {a b : Buf} (hsub : ∀ c ∈ t1, c ∈ t2)
    (h : Wrote env t1 a b) : Wrote env t2 a b := ⟨h.frame, h.cells.mono hsub⟩

theorem Wrote.cursor {env : UEnv} {t : List Char} {a b : Buf} (h : Wrote env t a b) (c : Cursor) :
    Wrote env t a { b with cursor := c } := ⟨h.frame, h.cells⟩

theorem wrote_modCell {env : UEnv} {t : List Char} {b b' : Buf} {pos : Cursor} {f : Cell → Cell}
    (hf : ∀ c, CellChange env b.fg b.bg b.style t c (f c)) (e : b.modCell pos f = some b') :
    Wrote env t b b' := by
  unfold Buf.modCell at e
  split at e
  · next c hc =>
    simp at e
    subst e
    refine ⟨⟨rfl, rfl, rfl, rfl, rfl⟩, by simp, fun i old new ho hn => ?_⟩
    simp only at hn
    rw [List.getElem?_set] at hn
    split at hn
    · next hi =>
      split at hn
      · rw [← hi, hc, Option.some.injEq] at ho
        obtain rfl := Option.some.inj hn
        rw [← ho]; exact hf c
      · cases hn
    · rw [ho, Option.some.injEq] at hn
      exact hn ▸ .same
  · cases e

theorem wrote_setCell {env : UEnv} {t : List Char} {b b' : Buf} {pos : Cursor} {ch : Char}
    (hch : (ch ∈ t ∧ Printable env ch) ∨ ch = ' ') (e : b.setCell pos ch = some b') : Wrote env t b b' :=
  wrote_modCell (fun _ => .drawn ch hch) e

theorem wrote_fillLoop {env : UEnv} {t : List Char} {ch : Char}
    (hch : (ch ∈ t ∧ Printable env ch) ∨ ch = ' ') (n : Nat)
    {pos : Cursor} {b b' : Buf} (e : Buf.fillLoop ch n pos b = some b') : Wrote env t b b' := by
  induction n generalizing pos b with
  | zero => rw [Buf.fillLoop, Option.some.injEq] at e; exact e ▸ Wrote.refl _
  | succ n ih =>
    rw [Buf.fillLoop] at e
    cases e1 : b.setCell pos ch with
    | none => rw [e1] at e; cases e
    | some b1 =>
      rw [e1] at e
      exact (wrote_setCell hch e1).trans (ih e)

theorem wrote_padLoop {env : UEnv} {t : List Char} (n : Nat)
    {pos : Cursor} {b b' : Buf} (e : Buf.padLoop n pos b = some b') : Wrote env t b b' := by
  induction n generalizing pos b with
  | zero => rw [Buf.padLoop, Option.some.injEq] at e; exact e ▸ Wrote.refl _
  | succ n ih =>
    rw [Buf.padLoop] at e
    cases e1 : b.setCell ⟨pos.line, pos.column + 1⟩ ' ' with
    | none => rw [e1] at e; cases e
    | some b1 =>
      rw [e1] at e
      exact (wrote_setCell (Or.inr rfl) e1).trans (ih e)

theorem wrote_placeChar {env : UEnv} {t : List Char} {ch : Char}
    (hch : (ch ∈ t ∧ Printable env ch) ∨ ch = ' ') {w : Nat}
    {b b' : Buf} {r : WRes} (e : Buf.placeChar ch w b = some (b', r)) : Wrote env t b b' := by
  unfold Buf.placeChar at e
  split at e
  · simp at e; exact e.1 ▸ Wrote.refl _
  · dsimp only at e
    cases e1 : b.setCell b.cursor ch with
    | none => rw [e1] at e; cases e
    | some b1 =>
      rw [e1] at e
      simp only [Option.bind_eq_bind, Option.bind_some] at e
      cases e2 : Buf.padLoop (w - 1) b.cursor b1 with
      | none => rw [e2] at e; cases e
      | some b2 =>
        rw [e2] at e
        simp only [Option.bind_some] at e
        have h12 := (wrote_setCell (env := env) hch e1).trans (wrote_padLoop _ e2)
        cases e3 : uadd b2.cursor.column w with
        | none => rw [e3] at e; cases e
        | some col =>
          rw [e3] at e
          simp only [Option.bind_some] at e
          split at e
          · cases e4 : uadd b2.cursor.line 1 with
            | none => rw [e4] at e; cases e
            | some l =>
              rw [e4] at e
              simp at e
              exact e.1 ▸ h12.cursor _
          · simp at e
            exact e.1 ▸ h12.cursor _

theorem wrote_writeCharNT {env : UEnv} {t : List Char} {ch : Char} (hch : ch ∈ t ∨ ch = ' ')
    (htab : ch ≠ '\t')
    (hsp : env.combining ' ' = false)
    {b b' : Buf} {r : WRes} (e : b.writeCharNT env ch = some (b', r)) : Wrote env t b b' := by
  unfold Buf.writeCharNT at e
  split at e
  · simp at e; exact e.1 ▸ (Wrote.refl b).cursor _
  · split at e
    · cases e4 : uadd b.cursor.line 1 with
      | none => rw [e4] at e; cases e
      | some l => rw [e4] at e; simp at e; exact e.1 ▸ (Wrote.refl b).cursor _
    · split at e
      · next hcomb =>
        cases ep : b.cursor.previous b.size with
        | none => rw [ep] at e; cases e
        | some p =>
          rw [ep] at e
          simp only [Option.bind_eq_bind, Option.bind_some] at e
          cases p with
          | none => simp at e; exact e.1 ▸ Wrote.refl _
          | some d =>
            simp only at e
            split at e
            · simp at e; exact e.1 ▸ Wrote.refl _
            · cases e1 : b.modCell d fun c => { c with text := c.text ++ [ch] } with
              | none => rw [e1] at e; cases e
              | some b1 =>
                rw [e1] at e
                simp at e
                have hmem : ch ∈ t := by
                  rcases hch with h | h
                  · exact h
                  · rw [h, hsp] at hcomb; cases hcomb
                exact e.1 ▸ wrote_modCell (fun c => .mark c ch .same hmem hcomb) e1
      · split at e
        · next hcr hlf hnc hvis =>
          have hch : (ch ∈ t ∧ Printable env ch) ∨ ch = ' ' := by
            rcases hch with h | h
            · refine Or.inl ⟨h, hcr, hlf, htab, by simpa using hnc, ?_⟩
              unfold isVisible at hvis
              rw [if_neg (by simp [hcr, hlf, htab])] at hvis
              simpa using hvis
            · exact Or.inr h
          split at e
          · simp at e; exact e.1 ▸ Wrote.refl _
          · cases et : b.tearPrev env with
            | none => rw [et] at e; cases e
            | some b1 =>
              have h1 : Wrote env t b b1 := by
                unfold Buf.tearPrev at et
                cases ep : b.cursor.previous b.size with
                | none => rw [ep] at et; cases et
                | some p =>
                  rw [ep] at et
                  simp only [Option.bind_eq_bind, Option.bind_some] at et
                  cases p with
                  | none => simp at et; exact et ▸ Wrote.refl _
                  | some d =>
                    refine wrote_modCell (fun c => ?_) et
                    by_cases hc : c.isWide env = true
                    · simp only [hc, if_true]; exact .blank
                    · simp only [hc]; exact .same
              rw [et] at e
              simp only [Option.bind_eq_bind, Option.bind_some] at e
              cases eu : usub b1.size.columns b1.cursor.column with
              | none => rw [eu] at e; cases e
              | some rem =>
                rw [eu] at e
                simp only [Option.bind_some] at e
                split at e
                · split at e
                  · simp at e; exact e.1 ▸ h1
                  · cases ef : Buf.fillLoop ch rem b1.cursor b1 with
                    | none => rw [ef] at e; cases e
                    | some b2 =>
                      rw [ef] at e
                      simp only [Option.bind_some] at e
                      cases el : uadd b2.cursor.line 1 with
                      | none => rw [el] at e; cases e
                      | some l =>
                        rw [el] at e
                        simp only [Option.bind_some] at e
                        exact (h1.trans (wrote_fillLoop hch _ ef)).cursor _ |>.trans
                          (wrote_placeChar hch e)
                · exact h1.trans (wrote_placeChar hch e)
        · simp at e; exact e.1 ▸ Wrote.refl _

theorem wrote_tabLoop {env : UEnv} {t : List Char} (hsp : env.combining ' ' = false) (n : Nat)
    {b b' : Buf} {r : WRes} (e : Buf.tabLoop env n b = some (b', r)) : Wrote env t b b' := by
  induction n generalizing b with
  | zero => rw [Buf.tabLoop] at e; simp at e; exact e.1 ▸ Wrote.refl _
  | succ n ih =>
    rw [Buf.tabLoop] at e
    cases e1 : b.writeCharNT env ' ' with
    | none => rw [e1] at e; cases e
    | some x =>
      obtain ⟨b1, r1⟩ := x
      have h1 : Wrote env t b b1 := wrote_writeCharNT (Or.inr rfl) (by decide) hsp e1
      rw [e1] at e
      cases r1 with
      | ok => exact h1.trans (ih e)
      | oob => simp at e; exact e.1 ▸ h1

theorem wrote_writeChar {env : UEnv} {t : List Char} {ch : Char} (hch : ch ∈ t)
    (hsp : env.combining ' ' = false)
    {b b' : Buf} {r : WRes} (e : b.writeChar env ch = some (b', r)) : Wrote env t b b' := by
  unfold Buf.writeChar at e
  split at e
  · split at e
    · simp at e; exact e.1 ▸ Wrote.refl _
    · cases eu : usub b.size.columns b.cursor.column with
      | none => rw [eu] at e; cases e
      | some rem =>
        rw [eu] at e
        exact wrote_tabLoop hsp _ e
  · next ht => exact wrote_writeCharNT (Or.inl hch) ht hsp e

theorem wrote_writeStr {env : UEnv} {s : List Char} (hsp : env.combining ' ' = false)
    {b b' : Buf} {r : WRes} (e : b.writeStr env s = some (b', r)) : Wrote env s b b' := by
  induction s generalizing b with
  | nil => rw [Buf.writeStr] at e; simp at e; exact e.1 ▸ Wrote.refl _
  | cons ch s ih =>
    cases e1 : b.writeChar env ch with
    | none => rw [Buf.writeStr, e1] at e; cases e
    | some x =>
      obtain ⟨b1, r1⟩ := x
      have h1 := wrote_writeChar (List.mem_cons_self (l := s)) hsp e1
      cases r1 with
      | ok =>
        rw [writeStr_cons e1] at e
        exact h1.trans ((ih e).mono fun c hc => List.mem_cons_of_mem _ hc)
      | oob =>
        rw [writeStr_cons_oob e1] at e
        simp at e
        exact e.1 ▸ h1

end Mortal
