import Verif.Lemmas.VtReads

/-! # A screen's output, read by an xterm -/

namespace Mortal
open Spec

/-- What a screen sends after it has switched buffers. -/
def OpenOut (o : Out) : Prop := TameOut o ∨ ∃ ps, o = .cap .changeScrollRegion ps

/-- What stays (compare `VFrame`; the margins may change). -/
structure VKeep (v v' : Vt) : Prop where
  size : v'.t.size = v.t.size
  bce : v'.t.bce = v.t.bce
  alt : v'.alt = v.alt
  other : v'.other = v.other
  saved : v'.saved = v.saved

theorem VKeep.refl (v : Vt) : VKeep v v := ⟨rfl, rfl, rfl, rfl, rfl⟩

theorem VKeep.trans {a b c : Vt} (h : VKeep a b) (k : VKeep b c) : VKeep a c :=
  ⟨k.size.trans h.size, k.bce.trans h.bce, k.alt.trans h.alt, k.other.trans h.other, k.saved.trans h.saved⟩

theorem VFrame.keep {v v' : Vt} (h : VFrame v v') : VKeep v v' := ⟨h.size, h.bce, h.alt, h.other, h.saved⟩

theorem devStep_text (a : DevAttrs) (b : Bytes) : devStep a (.text b) = a := rfl

theorem margins_cases (v : Vt) (a b : Nat) :
    v.ansi [a, b] 0x72 = v ∨ ∃ top bottom, v.ansi [a, b] 0x72 =
      { v with top := top, bottom := bottom, t := v.t.goto ⟨0, 0⟩, wrap := false } := by
  unfold Vt.ansi
  dsimp only
  rw [if_neg (by decide), if_neg (by decide), if_neg (by decide), if_neg (by decide), if_neg (by decide),
      if_neg (by decide), if_neg (by decide), if_neg (by decide), if_pos rfl]
  split
  · exact Or.inr ⟨_, _, rfl⟩
  · exact Or.inl rfl

section
variable {u : UEnv} {crlf : Bool} {v : Vt}

/-- What the terminal keeps when it reads one of these. -/
theorem item_keeps (h : v.Ready) {o : Out} (ho : OpenOut o) :
    VKeep v (v.feed u crlf (outBytes xtermDB o)) ∧ (v.feed u crlf (outBytes xtermDB o)).Ready ∧
      (v.feed u crlf (outBytes xtermDB o)).t.attrs = devStep v.t.attrs o := by
  rcases ho with ho | ⟨ps, rfl⟩
  · cases o with
    | cap c ps =>
      obtain ⟨a, b, c⟩ := feed_screenCap (u := u) (crlf := crlf) h ho.1 ho.2
      exact ⟨a.keep, b, c⟩
    | text b =>
      rcases ho with ho | ⟨s, rfl, hs⟩
      · obtain ⟨a, _, _, d⟩ := feed_mouseText (u := u) (crlf := crlf) h ho
        refine ⟨d.keep, ⟨?_, ?_, ?_, d.ps.trans h.ground⟩, by show (v.feed u crlf b).t.attrs = _; rw [a]; rfl⟩
        all_goals
          show _
          change (v.feed u crlf b).t = _ at a
          simp only [outBytes]
          rw [a]
        · exact h.size
        · exact h.cur
        · exact h.last
      · obtain ⟨a, b⟩ := ready_text (u := u) (crlf := crlf) s h hs
        exact ⟨(frame_text s h.ground hs).keep, a, b⟩
    | junk b => exact ho.elim
  · have e : v.feed u crlf (outBytes xtermDB (.cap .changeScrollRegion ps)) = _ := feed_margins h.ground ps
    rw [e]
    rcases margins_cases v (ps.getD 0 0 + 1) (ps.getD 1 0 + 1) with k | ⟨t, b, k⟩
    · rw [k]; exact ⟨VKeep.refl v, h, rfl⟩
    · rw [k]
      exact ⟨⟨rfl, rfl, rfl, rfl, rfl⟩, ⟨h.size, ⟨_, rfl, h.size.1, h.size.2.1⟩, fun p hp => (by cases hp), h.ground⟩, rfl⟩

/-- A terminal that understands terminfo and shows the same as far as it is known. -/
def VR (v : Vt) (t : Term) : Prop := Refines v.fill v ⟨t, v.visible⟩ ∧ t.bce = v.t.bce

/-- One for any xterm. -/
def absT (v : Vt) : Term := { v.t with cur := if v.wrap then none else v.t.cur }

theorem vr_abs (h : v.Ready) : VR v (absT v) := by
  refine ⟨⟨h, rfl, fun q _ => Or.inl rfl, fun p hp => ?_, fun p hp => hp, rfl, rfl, rfl⟩, rfl⟩
  change (if v.wrap then none else v.t.cur) = some p at hp
  cases hw : v.wrap with
  | true => rw [hw] at hp; cases hp
  | false => rw [hw] at hp; exact ⟨hp, rfl⟩

theorem screen_keeps {c : Cap} (h : ScreenCap c) : KeepsBuffer c := by
  cases c <;> first | trivial | exact h

/-- The two abstract terminals agree. -/
theorem step_emu {t t1 : Term} {vis : Bool} {fill : DevAttrs → DevAttrs} (hf : ∀ a, fill a = if t.bce then a else .plain)
    {c : Cap} {ps : List Nat} (hc : ScreenCap c) (e : t.step u (.cap c ps) = some t1) :
    ∃ vis', Emu.step u crlf fill ⟨t, vis⟩ (.cap c ps) = some ⟨t1, vis'⟩ := by
  cases c
  case clearScreen =>
    refine ⟨vis, ?_⟩
    cases e
    simp only [Emu.step, Term.erase, Term.goto, hf, if_true]
  case cursorNormal => cases e; exact ⟨true, rfl⟩
  case cursorInvisible => cases e; exact ⟨false, rfl⟩
  case cursorAddress =>
    refine ⟨vis, ?_⟩
    show (t.step u (.cap .cursorAddress ps)).map _ = _
    rw [e]; rfl
  all_goals first
    | exact hc.elim
    | (cases e; exact ⟨vis, rfl⟩)

theorem item_react {t : Term} (h : VR v t) {o : Out} (ho : OpenOut o) :
    ∃ t1, t.May u o t1 ∧ VR (v.feed u crlf (outBytes xtermDB o)) t1 := by
  obtain ⟨hR, hb⟩ := h
  have hr := hR.ready
  obtain ⟨k1, k2, k3⟩ := item_keeps (u := u) (crlf := crlf) hr ho
  have known : ∀ t1, t.react u o = some t1 → VR (v.feed u crlf (outBytes xtermDB o)) t1 →
      ∃ t1, t.May u o t1 ∧ VR (v.feed u crlf (outBytes xtermDB o)) t1 := fun t1 h1 h2 =>
    ⟨t1, ⟨fun t2 h3 => (by rw [h1] at h3; cases h3; rfl), fun h3 => (by rw [h1] at h3; cases h3)⟩, h2⟩
  have unknown : t.react u o = none →
      ∃ t1, t.May u o t1 ∧ VR (v.feed u crlf (outBytes xtermDB o)) t1 := fun h1 =>
    ⟨absT (v.feed u crlf (outBytes xtermDB o)), ⟨fun t2 h3 => (by rw [h1] at h3; cases h3), fun _ => ⟨k1.size.trans hR.size, k3.trans (by rw [hR.attrs]),
      k1.bce.trans hb.symm⟩⟩, vr_abs k2⟩
  have pack : ∀ {v' : Vt} {t1 : Term} {vis : Bool}, Refines v.fill v' ⟨t1, vis⟩ → t1.bce = t.bce →
      v'.t.bce = v.t.bce → VR v' t1 := by
    intro v' t1 vis h1 h2 h3
    refine ⟨?_, by rw [h2, hb, h3]⟩
    rw [h1.fill, h1.visible]
    exact h1
  by_cases hm : MouseText o
  · refine known t (by unfold Term.react; rw [if_pos hm]) ?_
    cases o with
    | text b =>
      obtain ⟨a, b1, b2, d⟩ := feed_mouseText (u := u) (crlf := crlf) hr hm
      refine pack (vis := v.visible) ?_ rfl k1.bce
      change (v.feed u crlf b).t = _ at a
      refine ⟨k2, ?_, ?_, ?_, ?_, ?_, b1, ?_⟩
      all_goals simp only [outBytes]
      · rw [a]; exact hR.size
      · rw [a]; exact hR.cell
      · intro p hp
        rw [a, b2]; exact hR.cur p hp
      · rw [a]; exact hR.last
      · rw [a]; exact hR.attrs
      · funext x; simp only [Vt.fill, a]
    | _ => rcases hm with hm | hm | hm | hm <;> cases hm
  · have er : t.react u o = t.step u o := by unfold Term.react; rw [if_neg hm]
    cases es : t.step u o with
    | none => exact unknown (er.trans es)
    | some t1 =>
      refine known t1 (er.trans es) ?_
      have hbce : t1.bce = t.bce :=
        (may_kept (u := u) (t := t) (o := o) (t' := t1) ⟨fun t2 h2 => (by rw [er, es] at h2; cases h2; rfl),
          fun h2 => (by rw [er, es] at h2; cases h2)⟩).2.2
      rcases ho with ho | ⟨ps, rfl⟩
      · cases o with
        | cap c ps =>
          obtain ⟨vis', e1⟩ := step_emu (u := u) (crlf := crlf) (vis := v.visible) (fill := v.fill)
            (fun a => by unfold Vt.fill; rw [hb]) ho.1 es
          exact pack (cap_refines hR (screen_keeps ho.1) ho.2 (Or.inr ⟨_, es⟩) e1) hbce k1.bce
        | text b => exact pack (putOut_refines hR b es).1 hbce k1.bce
        | junk b => exact ho.elim
      · cases es
        have e : v.feed u crlf (outBytes xtermDB (.cap .changeScrollRegion ps)) = _ := feed_margins hr.ground ps
        rw [e] at k1 k2 ⊢
        refine pack (vis := v.visible) ?_ rfl k1.bce
        rcases margins_cases v (ps.getD 0 0 + 1) (ps.getD 1 0 + 1) with k | ⟨tp, bt, k⟩
        · rw [k]
          exact ⟨hr, hR.size, hR.cell, fun p hp => (by cases hp), fun p hp => (by cases hp), hR.attrs, rfl, rfl⟩
        · rw [k] at k2 ⊢
          exact ⟨k2, hR.size, hR.cell, fun p hp => (by cases hp), fun p hp => (by cases hp), hR.attrs, rfl, rfl⟩

end

theorem items_keep {u : UEnv} {crlf : Bool} : ∀ (l : List Out) {v : Vt}, v.Ready → (∀ o ∈ l, OpenOut o) →
    VKeep v (v.feed u crlf (logBytes xtermDB l)) ∧ (v.feed u crlf (logBytes xtermDB l)).Ready ∧
      (v.feed u crlf (logBytes xtermDB l)).t.attrs = l.foldl devStep v.t.attrs
  | [], v, h, _ => ⟨VKeep.refl v, h, rfl⟩
  | o :: l, v, h, hl => by
    have eb : logBytes xtermDB (o :: l) = outBytes xtermDB o ++ logBytes xtermDB l := rfl
    rw [eb, vfeed_append]
    obtain ⟨a1, a2, a3⟩ := item_keeps (u := u) (crlf := crlf) h (hl o List.mem_cons_self)
    obtain ⟨b1, b2, b3⟩ := items_keep l a2 fun x hx => hl x (List.mem_cons_of_mem _ hx)
    exact ⟨a1.trans b1, b2, by rw [b3, a3]; rfl⟩

theorem items_react {u : UEnv} {crlf : Bool} : ∀ (l : List Out) {v : Vt} {t : Term}, VR v t →
    (∀ o ∈ l, OpenOut o) →
    ∃ t', t.Reacts u l t' ∧ VR (v.feed u crlf (logBytes xtermDB l)) t'
  | [], v, t, h, _ => ⟨t, .nil t, h⟩
  | o :: l, v, t, h, hl => by
    have eb : logBytes xtermDB (o :: l) = outBytes xtermDB o ++ logBytes xtermDB l := rfl
    rw [eb, vfeed_append]
    obtain ⟨t1, a1, a2⟩ := item_react (u := u) (crlf := crlf) h (hl o List.mem_cons_self)
    obtain ⟨t2, b1, b2⟩ := items_react l a2 fun x hx => hl x (List.mem_cons_of_mem _ hx)
    exact ⟨t2, .cons a1 b1, b2⟩

end Mortal
