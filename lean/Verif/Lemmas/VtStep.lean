import Verif.Lemmas.VtCmd

/-! # One command or text, in bytes -/

namespace Mortal
open Spec

/-- Parameters such as the crate gives. -/
def SaneParams : Cap → List Nat → Prop
  | .setAForeground, ps | .setABackground, ps => ∃ n, ps = [n]
  | .parmUp, ps | .parmDown, ps | .parmLeft, ps | .parmRight, ps => ps ≠ [0]
  | _, _ => True

/-- Commands that leave buffers and margins alone. -/
def KeepsBuffer : Cap → Prop
  | .changeScrollRegion | .enterCaMode | .exitCaMode => False
  | _ => True

/-- Commands a screen sends between its opening and its end. -/
def ScreenCap : Cap → Prop
  | .clearScreen | .cursorAddress | .cursorHome | .cursorNormal | .cursorInvisible | .keypadXmit
  | .keypadLocal => True
  | c => IsAttrCap c

theorem frame_paint (v : Vt) (f : DevAttrs → DevAttrs) : VFrame v (vpaint v f) :=
  ⟨rfl, rfl, rfl, rfl, rfl, rfl, rfl, rfl⟩

theorem ready_paint {v : Vt} (h : v.Ready) (f : DevAttrs → DevAttrs) : (vpaint v f).Ready :=
  ⟨h.size, h.cur, h.last, h.ground⟩

theorem frame_setMode (on : Bool) (v : Vt) (n : Nat) (hn : n ≠ 1049) : VFrame v (v.setMode on n) := by
  unfold Vt.setMode
  split
  · exact ⟨rfl, rfl, rfl, rfl, rfl, rfl, rfl, rfl⟩
  · exact ⟨rfl, rfl, rfl, rfl, rfl, rfl, rfl, rfl⟩

theorem setMode_t (on : Bool) (v : Vt) (n : Nat) (hn : n ≠ 1049) : (v.setMode on n).t = v.t := by
  unfold Vt.setMode
  split
  · rfl
  · rfl

theorem ready_of_t {v v' : Vt} (h : v.Ready) (e : v'.t = v.t) (g : v'.ps = v.ps) : v'.Ready :=
  ⟨by rw [e]; exact h.size, by rw [e]; exact h.cur, by rw [e]; exact h.last, by rw [g]; exact h.ground⟩

theorem ready_erase {v : Vt} (h : v.Ready) (R : Cursor → Prop) [DecidablePred R] : (v.erase R).Ready :=
  ⟨h.size, h.cur, h.last, h.ground⟩

theorem origin_in {z : Size} (h : GoodSize z) : InBounds ⟨0, 0⟩ z := ⟨h.1, h.2.1⟩

/-- A command of a screen keeps buffers and margins, and does to the attributes what it should. -/
theorem feed_screenCap {u : UEnv} {crlf : Bool} {v : Vt} (h : v.Ready) {c : Cap} {ps : List Nat}
    (hc : ScreenCap c) (hp : SaneParams c ps) :
    VFrame v (v.feed u crlf (xtermString c ps)) ∧ (v.feed u crlf (xtermString c ps)).Ready ∧
      (v.feed u crlf (xtermString c ps)).t.attrs = devStep v.t.attrs (.cap c ps) := by
  have at' : ∀ c, IsAttrCap c → SaneParams c ps →
      VFrame v (v.feed u crlf (xtermString c ps)) ∧ (v.feed u crlf (xtermString c ps)).Ready ∧
      (v.feed u crlf (xtermString c ps)).t.attrs = devStep v.t.attrs (.cap c ps) := by
    intro c hc hp
    rw [feed_attr h.ground hc (by rintro (rfl | rfl) <;> exact hp)]
    exact ⟨frame_paint _ _, ready_paint h _, rfl⟩
  have z := h.size
  cases c
  case exitAttributeMode => exact at' _ hc hp
  case enterBold => exact at' _ hc hp
  case enterItalics => exact at' _ hc hp
  case enterReverse => exact at' _ hc hp
  case enterUnderline => exact at' _ hc hp
  case exitItalics => exact at' _ hc hp
  case exitUnderline => exact at' _ hc hp
  case setAForeground => exact at' _ hc hp
  case setABackground => exact at' _ hc hp
  case clearScreen =>
    rw [feed_clearScreen h.ground]
    exact ⟨(frame_goto _ _).trans (frame_erase _ _), ready_erase (ready_goto h (origin_in z)) _, rfl⟩
  case cursorAddress =>
    rw [feed_address h.ground]
    refine ⟨frame_goto _ _, ready_goto h ?_, rfl⟩
    have h1 : 0 < v.t.size.lines := z.1
    have h2 : 0 < v.t.size.columns := z.2.1
    exact ⟨by show min _ _ < _; omega, by show min _ _ < _; omega⟩
  case cursorHome =>
    rw [feed_home h.ground]
    exact ⟨frame_goto _ _, ready_goto h (origin_in z), rfl⟩
  case cursorNormal =>
    rw [feed_normal h.ground]
    have e : ((v.setMode false 12).setMode true 25).t = v.t := by
      rw [setMode_t _ _ _ (by decide), setMode_t _ _ _ (by decide)]
    exact ⟨(frame_setMode _ _ _ (by decide)).trans (frame_setMode _ _ _ (by decide)),
      ready_of_t h e (by rw [setMode_ground, setMode_ground]), by rw [e]; rfl⟩
  case cursorInvisible =>
    rw [feed_invisible h.ground]
    have e := setMode_t false v 25 (by decide)
    exact ⟨frame_setMode _ _ _ (by decide), ready_of_t h e (by rw [setMode_ground]), by rw [e]; rfl⟩
  case keypadXmit =>
    rw [(feed_keypad h.ground ps).1]
    have e := setMode_t true v 1 (by decide)
    have f := frame_setMode true v 1 (by decide)
    exact ⟨⟨f.size, f.bce, f.top, f.bottom, f.alt, f.other, f.saved, f.ps⟩,
      ready_of_t h e (by rw [← setMode_ground true v 1]), by show (v.setMode true 1).t.attrs = _; rw [e]; rfl⟩
  case keypadLocal =>
    rw [(feed_keypad h.ground ps).2]
    have e := setMode_t false v 1 (by decide)
    have f := frame_setMode false v 1 (by decide)
    exact ⟨⟨f.size, f.bce, f.top, f.bottom, f.alt, f.other, f.saved, f.ps⟩,
      ready_of_t h e (by rw [← setMode_ground false v 1]), by show (v.setMode false 1).t.attrs = _; rw [e]; rfl⟩
  all_goals exact hc.elim

/-- The sequences for the mouse. -/
theorem feed_mouseText {u : UEnv} {crlf : Bool} {v : Vt} (h : v.Ready) {b : Bytes} (hb : MouseText (.text b)) :
    (v.feed u crlf b).t = v.t ∧ (v.feed u crlf b).visible = v.visible ∧
      (v.feed u crlf b).wrap = v.wrap ∧ VFrame v (v.feed u crlf b) := by
  obtain ⟨h1, h2, h3, h4⟩ := feed_mouse (u := u) (crlf := crlf) h.ground
  have w : ∀ (on : Bool) (w : Vt) (n : Nat), n ≠ 25 → n ≠ 1049 → (w.setMode on n).visible = w.visible ∧
      (w.setMode on n).wrap = w.wrap := by
    intro on w n a b
    unfold Vt.setMode
    rw [if_neg a, if_neg b]
    exact ⟨rfl, rfl⟩
  rcases hb with hb | hb | hb | hb
  all_goals
    cases hb
    first
      | rw [h1]
      | rw [h2]
      | rw [h3]
      | rw [h4]
  · refine ⟨?_, ?_, ?_, ?_⟩
    · rw [setMode_t _ _ _ (by decide), setMode_t _ _ _ (by decide)]
    · rw [(w _ _ _ (by decide) (by decide)).1, (w _ _ _ (by decide) (by decide)).1]
    · rw [(w _ _ _ (by decide) (by decide)).2, (w _ _ _ (by decide) (by decide)).2]
    · exact (frame_setMode _ _ _ (by decide)).trans (frame_setMode _ _ _ (by decide))
  · refine ⟨?_, ?_, ?_, ?_⟩
    · rw [setMode_t _ _ _ (by decide), setMode_t _ _ _ (by decide)]
    · rw [(w _ _ _ (by decide) (by decide)).1, (w _ _ _ (by decide) (by decide)).1]
    · rw [(w _ _ _ (by decide) (by decide)).2, (w _ _ _ (by decide) (by decide)).2]
    · exact (frame_setMode _ _ _ (by decide)).trans (frame_setMode _ _ _ (by decide))
  · exact ⟨setMode_t _ _ _ (by decide), (w _ _ _ (by decide) (by decide)).1,
      (w _ _ _ (by decide) (by decide)).2, frame_setMode _ _ _ (by decide)⟩
  · exact ⟨setMode_t _ _ _ (by decide), (w _ _ _ (by decide) (by decide)).1,
      (w _ _ _ (by decide) (by decide)).2, frame_setMode _ _ _ (by decide)⟩

section
variable {fill : DevAttrs → DevAttrs} {v : Vt} {e : Emu} {u : UEnv} {crlf : Bool}

theorem visible_refines (h : Refines fill v e) (on : Bool) :
    Refines fill (v.setMode on 25) { e with visible := on } :=
  ⟨⟨h.ready.size, h.ready.cur, h.ready.last, h.ready.ground⟩, h.size, h.cell, h.cur, h.last, h.attrs, rfl,
    h.fill⟩

theorem emu_eta (e : Emu) : { e with t := e.t } = e := rfl

/-- A command of a terminal. -/
theorem cap_refines (h : Refines fill v e) {c : Cap} {ps : List Nat} (hc : KeepsBuffer c)
    (hp : SaneParams c ps) (hm : v.FullMargins ∨ ∃ t, e.t.step u (.cap c ps) = some t)
    {e' : Emu} (he : e.step u crlf fill (.cap c ps) = some e') :
    Refines fill (v.feed u crlf (xtermString c ps)) e' := by
  have at' : ∀ c, IsAttrCap c → SaneParams c ps →
      Refines fill (v.feed u crlf (xtermString c ps))
        { e with t := { e.t with attrs := devStep e.t.attrs (.cap c ps) } } := by
    intro c hc hp
    rw [feed_attr h.ready.ground hc (by rintro (rfl | rfl) <;> exact hp)]
    exact attrs_refines h fun a => devStep a (.cap c ps)
  have g := h.ready.ground
  have z := h.ready.size
  have nt : ∀ c, (∀ t, e.t.step u (.cap c ps) ≠ some t) →
      (v.FullMargins ∨ ∃ t, e.t.step u (.cap c ps) = some t) → v.FullMargins :=
    fun c hn h => h.elim id fun ⟨t, ht⟩ => absurd ht (hn t)
  have mv : ∀ (d : Dir) (n : Nat), n ≠ 0 → e.move d n = some e' → v.FullMargins →
      Refines fill (v.ansi [n] (match d with | .up => 0x41 | .down => 0x42 | .right => 0x43 | .left => 0x44))
      e' := fun d n hn he hm => by
        cases d <;> exact move_refines h _ n hn hm he
  have one : ∀ (ps : List Nat) (n : Nat), ps = [n] → ps.getD 0 0 = n := by rintro _ n rfl; rfl
  cases c
  case exitAttributeMode => cases he; exact at' _ trivial hp
  case enterBold => cases he; exact at' _ trivial hp
  case enterItalics => cases he; exact at' _ trivial hp
  case enterReverse => cases he; exact at' _ trivial hp
  case enterUnderline => cases he; exact at' _ trivial hp
  case exitItalics => cases he; exact at' _ trivial hp
  case exitUnderline => cases he; exact at' _ trivial hp
  case setAForeground => cases he; exact at' _ trivial hp
  case setABackground => cases he; exact at' _ trivial hp
  case clearScreen =>
    cases he
    rw [feed_clearScreen g]
    exact erase_refines (goto_refines h ⟨0, 0⟩ (origin_in z)) _
  case clrEol =>
    obtain ⟨p, hp, rfl⟩ := Option.map_eq_some_iff.1 he
    rw [feed_clrEol g, (h.pos hp).1]
    exact erase_refines h _
  case clrEos =>
    obtain ⟨p, hp, rfl⟩ := Option.map_eq_some_iff.1 he
    rw [feed_clrEos g, (h.pos hp).1]
    exact erase_refines h _
  case cursorUp =>
    rw [feed_up g]
    exact mv .up 1 (by decide) he (nt _ (fun t ht => by cases ht) hm)
  case cursorLeft =>
    rw [feed_left g]
    exact mv .left 1 (by decide) he (nt _ (fun t ht => by cases ht) hm)
  case cursorRight =>
    rw [feed_right g]
    exact mv .right 1 (by decide) he (nt _ (fun t ht => by cases ht) hm)
  case parmUp =>
    rw [(feed_parm g ps).1]
    rcases ps with _ | ⟨n, _ | ⟨m, l⟩⟩
    · cases he
    · exact mv .up n (fun e => hp (by rw [e])) he (nt _ (fun t ht => by cases ht) hm)
    · cases he
  case parmDown =>
    rw [(feed_parm g ps).2.1]
    rcases ps with _ | ⟨n, _ | ⟨m, l⟩⟩
    · cases he
    · exact mv .down n (fun e => hp (by rw [e])) he (nt _ (fun t ht => by cases ht) hm)
    · cases he
  case parmRight =>
    rw [(feed_parm g ps).2.2.1]
    rcases ps with _ | ⟨n, _ | ⟨m, l⟩⟩
    · cases he
    · exact mv .right n (fun e => hp (by rw [e])) he (nt _ (fun t ht => by cases ht) hm)
    · cases he
  case parmLeft =>
    rw [(feed_parm g ps).2.2.2]
    rcases ps with _ | ⟨n, _ | ⟨m, l⟩⟩
    · cases he
    · exact mv .left n (fun e => hp (by rw [e])) he (nt _ (fun t ht => by cases ht) hm)
    · cases he
  case cursorAddress =>
    rw [feed_address g]
    rcases ps with _ | ⟨l, _ | ⟨c, _ | ⟨m, r⟩⟩⟩
    · cases he
    · cases he
    · obtain ⟨t, ht, rfl⟩ := Option.map_eq_some_iff.1 he
      simp only [Term.step] at ht
      split at ht
      · rename_i hb
        cases ht
        have hb' : InBounds ⟨l, c⟩ v.t.size := by rw [h.size]; exact hb
        have e1 : min l (v.t.size.lines - 1) = l := by have : l < v.t.size.lines := hb'.1; omega
        have e2 : min c (v.t.size.columns - 1) = c := by have : c < v.t.size.columns := hb'.2; omega
        show Refines fill (v.goto ⟨min l _, min c _⟩) _
        rw [e1, e2]
        exact goto_refines h _ hb'
      · cases ht
    · cases he
  case cursorHome =>
    cases he
    rw [feed_home g]
    exact goto_refines h _ (origin_in z)
  case cursorNormal =>
    cases he
    rw [feed_normal g]
    exact visible_refines (setMode_refines h false 12 (by decide) (by decide)) true
  case cursorInvisible =>
    cases he
    rw [feed_invisible g]
    exact visible_refines h false
  case keypadXmit =>
    cases he
    rw [(feed_keypad g ps).1]
    have k := setMode_refines h true 1 (by decide) (by decide)
    exact ⟨⟨k.ready.size, k.ready.cur, k.ready.last, k.ready.ground⟩, k.size, k.cell, k.cur, k.last, k.attrs,
      k.visible, k.fill⟩
  case keypadLocal =>
    cases he
    rw [(feed_keypad g ps).2]
    have k := setMode_refines h false 1 (by decide) (by decide)
    exact ⟨⟨k.ready.size, k.ready.cur, k.ready.last, k.ready.ground⟩, k.size, k.cell, k.cur, k.last, k.attrs,
      k.visible, k.fill⟩
  all_goals exact hc.elim

/-- Text on a terminal. -/
theorem textOut_refines (h : Refines fill v e) (b : Bytes) (hm : v.FullMargins)
    {e' : Emu} (he : e.step u crlf fill (.text b) = some e') :
    Refines fill (v.feed u crlf b) e' ∧ VFrame v (v.feed u crlf b) := by
  simp only [Emu.step] at he
  obtain ⟨t, hb, ht⟩ := decodeAll_sound b.length b (Nat.le_refl _)
  split at he
  · rename_i s hs
    rw [hs] at hb ht
    dsimp only at hb ht
    subst ht
    rw [List.append_nil] at hb
    obtain ⟨t, ht, rfl⟩ := Option.map_eq_some_iff.1 he
    rw [hb]
    obtain ⟨k1, k2⟩ := text_refines u crlf s h hm ht
    exact ⟨k1, frame_text s h.ready.ground k2⟩
  · cases he

/-- Text on a screen. -/
theorem putOut_refines (h : Refines fill v e) (b : Bytes) {t : Term} (ht : e.t.step u (.text b) = some t) :
    Refines fill (v.feed u crlf b) { e with t := t } ∧ VFrame v (v.feed u crlf b) := by
  simp only [Term.step] at ht
  obtain ⟨r, hb, hr⟩ := decodeAll_sound b.length b (Nat.le_refl _)
  split at ht
  · rename_i s hs
    rw [hs] at hb hr
    dsimp only at hb hr
    subst hr
    rw [List.append_nil] at hb
    rw [hb]
    obtain ⟨k1, k2⟩ := putText_refines u crlf s h ht
    exact ⟨k1, frame_text s h.ready.ground k2⟩
  · cases ht

theorem cap_frame (h : v.ps = .ground) {c : Cap} {ps : List Nat} (hc : KeepsBuffer c)
    (hp : SaneParams c ps) : VFrame v (v.feed u crlf (xtermString c ps)) := by
  have at' : ∀ c, IsAttrCap c → SaneParams c ps → VFrame v (v.feed u crlf (xtermString c ps)) := by
    intro c hc hp
    rw [feed_attr h hc (by rintro (rfl | rfl) <;> exact hp)]
    exact frame_paint _ _
  cases c
  case exitAttributeMode => exact at' _ trivial hp
  case enterBold => exact at' _ trivial hp
  case enterItalics => exact at' _ trivial hp
  case enterReverse => exact at' _ trivial hp
  case enterUnderline => exact at' _ trivial hp
  case exitItalics => exact at' _ trivial hp
  case exitUnderline => exact at' _ trivial hp
  case setAForeground => exact at' _ trivial hp
  case setABackground => exact at' _ trivial hp
  case clearScreen =>
    rw [feed_clearScreen h]; exact (frame_goto _ _).trans (frame_erase _ _)
  case clrEol => rw [feed_clrEol h]; exact frame_erase _ _
  case clrEos => rw [feed_clrEos h]; exact frame_erase _ _
  case cursorUp => rw [feed_up h]; exact frame_goto _ _
  case cursorLeft => rw [feed_left h]; exact frame_goto _ _
  case cursorRight => rw [feed_right h]; exact frame_goto _ _
  case parmUp => rw [(feed_parm h ps).1]; exact frame_goto _ _
  case parmDown => rw [(feed_parm h ps).2.1]; exact frame_goto _ _
  case parmRight => rw [(feed_parm h ps).2.2.1]; exact frame_goto _ _
  case parmLeft => rw [(feed_parm h ps).2.2.2]; exact frame_goto _ _
  case cursorAddress => rw [feed_address h]; exact frame_goto _ _
  case cursorHome => rw [feed_home h]; exact frame_goto _ _
  case cursorNormal =>
    rw [feed_normal h]
    exact (frame_setMode _ _ _ (by decide)).trans (frame_setMode _ _ _ (by decide))
  case cursorInvisible => rw [feed_invisible h]; exact frame_setMode _ _ _ (by decide)
  case keypadXmit =>
    rw [(feed_keypad h ps).1]
    have f := frame_setMode true v 1 (by decide)
    exact ⟨f.size, f.bce, f.top, f.bottom, f.alt, f.other, f.saved, f.ps⟩
  case keypadLocal =>
    rw [(feed_keypad h ps).2]
    have f := frame_setMode false v 1 (by decide)
    exact ⟨f.size, f.bce, f.top, f.bottom, f.alt, f.other, f.saved, f.ps⟩
  all_goals exact hc.elim

end

/-- What a terminal's write guard hands over on an xterm. -/
def SaneOut : Out → Prop
  | .cap c ps => KeepsBuffer c ∧ SaneParams c ps
  | .text _ => True
  | .junk _ => False

/-- Commands and texts, in bytes: the terminal does what the abstract one does. -/
theorem play_refines {fill : DevAttrs → DevAttrs} {u : UEnv} {crlf : Bool} : ∀ (l : List Out) {v : Vt} {e e' : Emu},
    Refines fill v e → v.FullMargins → (∀ o ∈ l, SaneOut o) → e.play u crlf fill l = some e' →
    Refines fill (v.feed u crlf (logBytes xtermDB l)) e' := by
  intro l
  induction l with
  | nil => intro v e e' h hm hl he; cases he; exact h
  | cons o l ih =>
    intro v e e' h hm hl he
    obtain ⟨e1, h1, h2⟩ := Option.bind_eq_some_iff.1 he
    have eb : logBytes xtermDB (o :: l) = outBytes xtermDB o ++ logBytes xtermDB l := rfl
    rw [eb, vfeed_append]
    have key : Refines fill (v.feed u crlf (outBytes xtermDB o)) e1 ∧
        VFrame v (v.feed u crlf (outBytes xtermDB o)) := by
      cases o with
      | cap c ps =>
        obtain ⟨k1, k2⟩ := hl _ List.mem_cons_self
        exact ⟨cap_refines h k1 k2 (Or.inl hm) h1, cap_frame h.ready.ground k1 k2⟩
      | text b => exact textOut_refines h b hm h1
      | junk b => exact (hl _ List.mem_cons_self).elim
    exact ih key.1 (key.2.margins hm) (fun o ho => hl o (List.mem_cons_of_mem _ ho)) h2

end Mortal
