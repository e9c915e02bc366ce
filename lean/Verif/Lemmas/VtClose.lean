import Verif.Lemmas.VtOpen

/-! # The end of a screen on an xterm -/

namespace Mortal
open Spec

/-! ## The modes -/

section
variable {u : UEnv} {crlf : Bool} {v : Vt}

theorem modes_eq {v v' : Vt} {d : DevModes} (h : v.Modes d) (e1 : v'.keypad = v.keypad)
    (e2 : v'.mode = v.mode) : v'.Modes d :=
  ⟨e1.trans h.keypad, by rw [e2]; exact h.keys, by rw [e2]; exact h.form, by rw [e2]; exact h.buttons,
    by rw [e2]; exact h.motion⟩

theorem text_modes : ∀ (s : List Char) {v : Vt}, v.ps = .ground → CleanText s →
    (v.feed u crlf (encode s)).keypad = v.keypad ∧ (v.feed u crlf (encode s)).mode = v.mode := by
  intro s
  induction s with
  | nil => intro v _ _; exact ⟨rfl, rfl⟩
  | cons ch s ih =>
    intro v h hs
    rw [encode_cons, vfeed_append, feed_char h ch (hs ch List.mem_cons_self)]
    have f := frame_char u crlf v ch
    obtain ⟨-, m1, m2⟩ := char_modes u crlf v ch
    obtain ⟨i1, i2⟩ := ih (f.ps.trans h) fun c hc => hs c (List.mem_cons_of_mem _ hc)
    exact ⟨i1.trans m1, i2.trans m2⟩

theorem setMode_other {on : Bool} {n : Nat} (h1 : n ≠ 25) (h2 : n ≠ 1049) (v : Vt) :
    v.setMode on n = { v with mode := fun m => if m = n then on else v.mode m } := by
  unfold Vt.setMode
  rw [if_neg h1, if_neg h2]

theorem setMode_visible (on : Bool) (v : Vt) : v.setMode on 25 = { v with visible := on } := by
  unfold Vt.setMode
  rw [if_pos rfl]

/-- What is handed over does to the modes what `modeStep` says. -/
theorem item_modes (h : v.Ready) {o : Out} (ho : OpenOut o) {d : DevModes} (hm : v.Modes d) :
    (v.feed u crlf (outBytes xtermDB o)).Modes (modeStep d o) := by
  have hg := h.ground
  rcases ho with ho | ⟨ps, rfl⟩
  · cases o with
    | cap c ps =>
      obtain ⟨hc, hp⟩ := ho
      show (v.feed u crlf (xtermString c ps)).Modes _
      by_cases hA : IsAttrCap c
      · rw [feed_attr hg hA (by rintro (rfl | rfl) <;> exact hp), noMode_attr hA]
        exact modes_eq hm rfl rfl
      cases c
      case clearScreen => rw [feed_clearScreen hg]; exact modes_eq hm rfl rfl
      case cursorAddress => rw [feed_address hg]; exact modes_eq hm rfl rfl
      case cursorHome => rw [feed_home hg]; exact modes_eq hm rfl rfl
      case cursorNormal =>
        rw [feed_normal hg, setMode_visible, setMode_other (by decide) (by decide)]
        exact ⟨hm.keypad, hm.keys, hm.form, hm.buttons, hm.motion⟩
      case cursorInvisible => rw [feed_invisible hg, setMode_visible]; exact modes_eq hm rfl rfl
      case keypadXmit =>
        rw [(feed_keypad hg ps).1, setMode_other (by decide) (by decide)]
        exact ⟨rfl, rfl, hm.form, hm.buttons, hm.motion⟩
      case keypadLocal =>
        rw [(feed_keypad hg ps).2, setMode_other (by decide) (by decide)]
        exact ⟨rfl, rfl, hm.form, hm.buttons, hm.motion⟩
      all_goals first | exact (hA trivial).elim | exact hc.elim
    | text b =>
      show (v.feed u crlf b).Modes _
      rcases ho with ho | ⟨s, rfl, hs⟩
      · obtain ⟨f1, f2, f3, f4⟩ := feed_mouse (u := u) (crlf := crlf) hg
        rcases ho with e | e | e | e <;> injection e with e <;> subst e
        · rw [f1, setMode_other (by decide) (by decide), setMode_other (by decide) (by decide)]
          exact ⟨hm.keypad, hm.keys, rfl, rfl, hm.motion⟩
        · rw [f2, setMode_other (by decide) (by decide), setMode_other (by decide) (by decide)]
          exact ⟨hm.keypad, hm.keys, rfl, rfl, hm.motion⟩
        · rw [f3, setMode_other (by decide) (by decide)]
          exact ⟨hm.keypad, hm.keys, hm.form, hm.buttons, rfl⟩
        · rw [f4, setMode_other (by decide) (by decide)]
          exact ⟨hm.keypad, hm.keys, hm.form, hm.buttons, rfl⟩
      · obtain ⟨a, b⟩ := text_modes (u := u) (crlf := crlf) s hg hs
        rw [noMode_text hs]
        exact modes_eq hm a b
    | junk b => exact ho.elim
  · have e : v.feed u crlf (outBytes xtermDB (.cap .changeScrollRegion ps)) = _ := feed_margins hg ps
    rw [e]
    obtain ⟨-, -, -, -, -, -, a, b⟩ := ansi_core v [ps.getD 0 0 + 1, ps.getD 1 0 + 1] 0x72
    exact modes_eq hm a b

theorem items_modes : ∀ (l : List Out) {v : Vt} {d : DevModes}, v.Ready → (∀ o ∈ l, OpenOut o) → v.Modes d →
    (v.feed u crlf (logBytes xtermDB l)).Modes (l.foldl modeStep d)
  | [], _, _, _, _, hm => hm
  | o :: l, v, d, h, hl, hm => by
    have eb : logBytes xtermDB (o :: l) = outBytes xtermDB o ++ logBytes xtermDB l := rfl
    rw [eb, vfeed_append]
    have a := item_modes (u := u) (crlf := crlf) h (hl o List.mem_cons_self) hm
    have b := (item_keeps (u := u) (crlf := crlf) h (hl o List.mem_cons_self)).2.1
    exact items_modes l b (fun x hx => hl x (List.mem_cons_of_mem _ hx)) a

end

theorem devModes_app (l l' : List Out) : devModes (l ++ l') = l'.foldl modeStep (devModes l) := by
  unfold devModes; rw [List.foldl_append]

theorem opened_modes {u : UEnv} {crlf : Bool} {v : Vt} (h : v.Ready) (ha : v.alt = false) {x new : List Out}
    (hx : ∀ o ∈ x, Silent o) (hn : ∀ o ∈ new, OpenOut o) {d : DevModes} (hm : v.Modes d) :
    (v.feed u crlf (logBytes xtermDB (x ++ Out.cap .enterCaMode [] :: new))).Modes
      ((x ++ Out.cap .enterCaMode [] :: new).foldl modeStep d) := by
  have eb : logBytes xtermDB (x ++ Out.cap .enterCaMode [] :: new) =
      logBytes xtermDB x ++ (outBytes xtermDB (.cap .enterCaMode []) ++ logBytes xtermDB new) :=
    logBytes_app _ _ _
  have hx' : ∀ o ∈ x, OpenOut o := fun o ho => Or.inl (silent_tame (hx o ho))
  rw [eb, vfeed_append, vfeed_append, List.foldl_append]
  have a := items_modes (u := u) (crlf := crlf) x h hx' hm
  obtain ⟨b1, b2, b3⟩ := items_keep (u := u) (crlf := crlf) x h hx'
  generalize v.feed u crlf (logBytes xtermDB x) = v1 at a b1 b2 b3 ⊢
  have al : v1.alt = false := b1.alt.trans ha
  have c := enter_vt (u := u) (crlf := crlf) b2 al
  refine items_modes new c.1 hn ?_
  have e : v1.feed u crlf (outBytes xtermDB (.cap .enterCaMode [])) = _ := feed_enter b2.ground []
  rw [e]
  unfold Vt.toAlternate
  dsimp only
  rw [al]
  exact modes_eq a rfl rfl

/-! ## What closing hands over -/

theorem quietK_restoreSig {e : WEnv} (g : Sig) (o : Option Disp) : Keeps (MuteUS e) (restoreSig g o) := by
  unfold restoreSig
  split
  · exact (quietK_sigaction _ _).bind fun _ => Keeps.pure _
  · exact Keeps.pure _

theorem quietK_restore {env : REnv} (hdb : GoodDB env.w) (st : PrepareState) :
    Keeps (MuteUS env.w) (restore env st) := by
  refine quietK_withWriter ?_
  unfold restoreWithLock
  refine (Keeps.modifyS ?_).bind fun _ => Keeps.bind ?_ fun _ => Keeps.bind ?_ fun _ =>
    (quietK_liftW (quiet_flush _)).bind fun _ => (keeps_sysCall.bind fun _ => Keeps.modifyS ?_).bind fun _ =>
    (quietK_restoreSig _ _).bind fun _ => (quietK_restoreSig _ _).bind fun _ =>
    (quietK_restoreSig _ _).bind fun _ => (quietK_restoreSig _ _).bind fun _ => quietK_restoreSig _ _
  · exact fun _ => MuteUS.same rfl
  · split
    · refine (quietK_liftW (quiet_write env.w ?_)).bind fun _ => quietK_liftW (quiet_write env.w ?_)
      · exact Or.inr (Or.inl rfl)
      · exact Or.inr (Or.inr (Or.inr rfl))
    · exact Keeps.pure _
  · split
    · exact quietK_liftW (quiet_expandOpt hdb (Or.inr (Or.inr (Or.inr rfl))))
    · exact Keeps.pure _
  · exact fun _ => MuteUS.same rfl

/-- `Terminal::exit_screen` on an xterm. -/
theorem exit_parts {env : REnv} (hx : env.w = xtermDB) {s s' : US} (h : termExit env s = .ok () s') :
    s'.w.log = s.w.log ++ [Out.cap .exitCaMode []] ∧ (Delivered xtermDB s.w → Delivered xtermDB s'.w) := by
  refine ⟨?_, ?_⟩
  · have := core_log (termExit_core h)
    rw [this, hx]; rfl
  · unfold termExit withWriter at h
    cases hm : liftW (exitScreen env.w) s with
    | stop x => rw [hm] at h; cases h
    | err x s1 => rw [hm] at h; obtain ⟨_, s2, h1, h2⟩ := M.bind_ok h; cases h2
    | ok x s1 =>
      rw [hm] at h
      obtain ⟨_, s2, h1, h2⟩ := M.bind_ok h
      cases h2
      have hq := quietK_liftW (quiet_sessionEnd env.w) s1
      change liftW _ s1 = _ at h1
      rw [h1, hx] at hq
      obtain ⟨w, e, rfl⟩ := liftW_ok hm
      rw [hx] at e
      intro hd
      refine hq.dlv ?_
      change (expand xtermDB .exitCaMode [] (fun ps => (xtermString .exitCaMode ps, true)) s.w >>? flush) = _ at e
      obtain ⟨w1, e1, e2⟩ := andThen_inv e
      exact (delivered_inv xtermDB).flush w1 ((delivered_inv xtermDB).expand _ _ _ s.w rfl hd w1 (by rw [e1]; rfl)) w
        (by rw [e2]; rfl)

/-- All that dropping a screen hands over on an xterm. -/
theorem drop_out {env : REnv} (hx : env.w = xtermDB) {p : PrepareState} {s s' : US}
    (hs : NoFailures s) (h : screenDrop env p s = .ok () s') :
    ∃ x s1, restore env p s = .ok () s1 ∧ (∀ o ∈ x, Silent o) ∧ s1.w.log = s.w.log ++ x ∧
      s'.w.log = s.w.log ++ (x ++ [.cap .exitCaMode [], .cap .cursorNormal []]) ∧
      (Delivered xtermDB s.w → Delivered xtermDB s'.w) := by
  have hg : GoodDB env.w := by rw [hx]; exact good_xterm
  obtain ⟨s1, s2, e1, e2, e3, -, -⟩ := screenDrop_ok hg hs h
  have m1 := (quietK_restore hg p).ok e1
  obtain ⟨x, l1, q1⟩ := m1.log
  obtain ⟨l2, d2⟩ := exit_parts hx e2
  have l3 := core_log (termCursorMode_core e3)
  have m3 := (quietK_cursorMode hg .normal).ok e3
  rw [hx] at m1 m3
  refine ⟨x, s1, e1, q1, l1, ?_, fun hd => m3.dlv (d2 (m1.dlv hd))⟩
  rw [l3, hx]
  show s2.w.log ++ [Out.cap .cursorNormal []] = _
  rw [l2, l1]
  simp

/-- What the xterm makes of it. -/
theorem drop_vt {u : UEnv} {crlf : Bool} {v : Vt} (h : v.Ready) (ha : v.alt = true) {x : List Out}
    (hx : ∀ o ∈ x, Silent o) :
    let v' := v.feed u crlf (logBytes xtermDB (x ++ [.cap .exitCaMode [], .cap .cursorNormal []]))
    v'.Ready ∧ v'.alt = false ∧ v'.t.cell = v.other ∧ v'.wrap = v.saved.2.1 ∧ v'.t.attrs = v.saved.2.2 ∧
      v'.t.size = v.t.size ∧ v'.visible = true ∧
      v'.t.cur = some ⟨min v.saved.1.line (v.t.size.lines - 1), min v.saved.1.column (v.t.size.columns - 1)⟩ ∧
      ∀ d, v.Modes d → v'.Modes (x.foldl modeStep d) := by
  dsimp only
  have hx' : ∀ o ∈ x, OpenOut o := fun o ho => Or.inl (silent_tame (hx o ho))
  have eb : logBytes xtermDB (x ++ [.cap .exitCaMode [], .cap .cursorNormal []]) =
      logBytes xtermDB x ++ (xtermString .exitCaMode [] ++ (xtermString .cursorNormal [] ++ [])) :=
    logBytes_app _ _ _
  rw [eb, List.append_nil, vfeed_append, vfeed_append]
  have a := fun d (hm : v.Modes d) => items_modes (u := u) (crlf := crlf) x h hx' hm
  obtain ⟨b1, b2, -⟩ := items_keep (u := u) (crlf := crlf) x h hx'
  generalize v.feed u crlf (logBytes xtermDB x) = v1 at a b1 b2 ⊢
  have al : v1.alt = true := b1.alt.trans ha
  rw [feed_exit b2.ground]
  have e : v1.fromAlternate = { v1 with
      alt := false
      other := v1.t.cell
      wrap := v1.saved.2.1
      t := { v1.t with
        cell := v1.other
        cur := some ⟨min v1.saved.1.line (v1.t.size.lines - 1), min v1.saved.1.column (v1.t.size.columns - 1)⟩
        last := none
        attrs := v1.saved.2.2 } } := by
    unfold Vt.fromAlternate
    rw [al]
    rfl
  rw [e, feed_normal (by exact b2.ground), setMode_visible, setMode_other (by decide) (by decide)]
  have z := b2.size
  have z1 : 0 < v1.t.size.lines := z.1
  have z2 : 0 < v1.t.size.columns := z.2.1
  refine ⟨⟨z, ⟨_, rfl, ?_, ?_⟩, fun _ hp => (by cases hp), b2.ground⟩, rfl, b1.other, ?_, ?_, b1.size, rfl, ?_, ?_⟩
  · show min _ _ < _
    exact Nat.lt_of_le_of_lt (Nat.min_le_right _ _) (Nat.sub_lt z1 Nat.one_pos)
  · show min _ _ < _
    exact Nat.lt_of_le_of_lt (Nat.min_le_right _ _) (Nat.sub_lt z2 Nat.one_pos)
  · show v1.saved.2.1 = _; rw [b1.saved]
  · show v1.saved.2.2 = _; rw [b1.saved]
  · show some _ = some _; rw [b1.saved, b1.size]
  · intro d hm
    have a := a d hm
    exact ⟨a.keypad, a.keys, a.form, a.buttons, a.motion⟩

/-! ## The whole session -/

/-- While the screen is open: what will be there again afterwards. `k`: the window kept its size; `m`: the
modes were known at first. -/
structure VHeld (v0 : Vt) (m k : Prop) (x : VLive) : Prop where
  ready : x.v.Ready
  takes : TakesAll x.s.w.os
  read : x.s.w.pending = []
  dlv : Delivered xtermDB x.s.w
  clean : CleanBuf x.d.buf
  alt : x.v.alt = true
  attrs : x.v.saved.2.2 = v0.t.attrs
  modes : m → x.v.Modes (devModes x.s.w.log)
  kept : k → x.v.t.size = v0.t.size ∧ x.v.other = v0.t.cell ∧ x.v.saved = (v0.pos, v0.wrap, v0.t.attrs)

theorem vsame_modes {v v' : Vt} (h : VSame v v') {d : DevModes} (hm : v.Modes d) : v'.Modes d :=
  modes_eq hm h.keypad h.mode

/-- What is known of the terminal whether the window changed its size or not. -/
theorem looks_same {u : UEnv} {crlf : Bool} {v v' : Vt} {s s' : US} (h : v.Ready) (hl : v.Looks u crlf s s' v')
    (hr : (v.feed u crlf (newBytes s s')).Ready) :
    v'.Ready ∧ VSame (v.feed u crlf (newBytes s s')) v' ∧
      (SizeKept s s' → v' = v.feed u crlf (newBytes s s')) := by
  by_cases hk : SizeKept s s'
  · have e := hl.1 hk
    exact ⟨by rw [e]; exact hr, by rw [e]; exact VSame.refl _, hl.1⟩
  · obtain ⟨h1, -⟩ := hl.2 hk
    obtain ⟨a, b⟩ := reads_known h1 ⟨h.size, h.cur, h.last⟩
    exact ⟨⟨a.size, a.cur, a.last, b.ps.trans hr.ground⟩, b, hl.1⟩

theorem vheld_open {u : UEnv} {crlf : Bool} {env : REnv} (hx : env.w = xtermDB) {cfg : PrepareConfig}
    {s0 s1 : US} {scr : ScreenU} {v0 v1 : Vt} (hu : VUsed s0 v0) (hw : TakesAll s0.w.os)
    (h : screenNew env cfg s0 = .ok scr s1) (hl : v0.Looks u crlf s0 s1 v1) :
    VHeld v0 (v0.Modes (devModes s0.w.log)) (SizeKept s0 s1) ⟨scr.data, s1, v1⟩ := by
  obtain ⟨ops, os, n1, n2⟩ := hu.before
  have hd : Delivered xtermDB s0.w := inv_runW (delivered_inv xtermDB) ops _ _ ⟨n1, rfl⟩ n2
  obtain ⟨⟨x, new, l1, q1, q2⟩, d1, c1⟩ := opened_out hx h hd
  obtain ⟨f1, f2⟩ := (flushedK_screenNew env cfg).ok h hw
  have f2 := f2 hu.read
  have hb := newBytes_eq hd hu.read d1 f2 l1
  obtain ⟨o1, o2, o3, o4, o5, -, -⟩ := opened_vt (u := u) (crlf := crlf) hu.ready hu.alt q1 q2
  have om := fun d (hm : v0.Modes d) => opened_modes (u := u) (crlf := crlf) hu.ready hu.alt q1 q2 hm
  rw [← hb] at o1 o2 o3 o4 o5 om
  obtain ⟨g1, g2, g3⟩ := looks_same hu.ready hl o1
  refine ⟨g1, f1, f2, d1, c1, g2.alt.trans o2, g2.saved.trans (by rw [o4]), fun hm => ?_, fun hk => ?_⟩
  · show v1.Modes (devModes s1.w.log)
    rw [l1, devModes_app]
    exact vsame_modes g2 (om _ hm)
  · show v1.t.size = _ ∧ v1.other = _ ∧ v1.saved = _
    rw [g3 hk]
    exact ⟨o5, o3, o4⟩

theorem VHeld.call {u : UEnv} (hT : TableOk u) {crlf : Bool} {env : REnv} (hx : env.w = xtermDB) {x : VLive}
    {v0 : Vt} {m k : Prop} (h : VHeld v0 m k x) {op : ScrOp} {r : URet} {d : SData} {s : US} {v : Vt}
    (e : op.run u env x.d x.s = some (r, d, s)) (hl : x.v.Looks u crlf x.s s v) :
    VHeld v0 m (k ∧ SizeKept x.s s) ⟨d, s, v⟩ := by
  obtain ⟨⟨⟨new, l1, q⟩, d1⟩, c1⟩ := tame_scr hT hx h.clean e
  have d1 := d1 h.dlv
  obtain ⟨f1, f2⟩ := flushed_scr op e h.takes
  have f2 := f2 h.read
  have hb := newBytes_eq h.dlv h.read d1 f2 l1
  have q' : ∀ o ∈ new, OpenOut o := fun o ho => Or.inl (q o ho)
  obtain ⟨i1, i2, -⟩ := items_keep (u := u) (crlf := crlf) new h.ready q'
  have im := fun d (hm : x.v.Modes d) => items_modes (u := u) (crlf := crlf) new h.ready q' hm
  rw [← hb] at i1 i2 im
  obtain ⟨g1, g2, g3⟩ := looks_same h.ready hl i2
  refine ⟨g1, f1, f2, d1, c1, g2.alt.trans (i1.alt.trans h.alt), ?_, fun hm => ?_, fun hk => ?_⟩
  · show v.saved.2.2 = _
    rw [g2.saved, i1.saved]; exact h.attrs
  · show v.Modes (devModes s.w.log)
    rw [l1, devModes_app]
    exact vsame_modes g2 (im _ (h.modes hm))
  · obtain ⟨a, b, c⟩ := h.kept hk.1
    show v.t.size = _ ∧ v.other = _ ∧ v.saved = _
    rw [g3 hk.2]
    exact ⟨i1.size.trans a, i1.other.trans b, i1.saved.trans c⟩

theorem VHeld.mono {v0 : Vt} {m k k' : Prop} {x : VLive} (h : VHeld v0 m k x) (hk : k' → k) : VHeld v0 m k' x :=
  { h with kept := fun a => h.kept (hk a) }

theorem VHeld.run {u : UEnv} (hT : TableOk u) {crlf : Bool} {env : REnv} (hx : env.w = xtermDB) {x y : VLive}
    {es : List LiveEv} (h : VRun u crlf env x es y) {v0 : Vt} {m : Prop} : ∀ {k : Prop}, VHeld v0 m k x →
    VHeld v0 m (k ∧ Steady es) y := by
  induction h with
  | done x => intro k h; exact h.mono And.left
  | call e l _ ih =>
    intro k h
    refine (ih (h.call hT hx e l)).mono fun ⟨a, b⟩ => ⟨⟨a, ?_⟩, fun e he => b e (List.mem_cons_of_mem _ he)⟩
    obtain ⟨op', r', e'⟩ := b _ List.mem_cons_self
    injection e' with _ _ e'
    exact of_decide_eq_true e'
  | window hz h1 h2 _ ih =>
    intro k h
    rename_i x y z v es hh
    have hr : v.Ready := ⟨h2.size, h2.cur, h2.last, h2.ps.trans h.ready.ground⟩
    refine (ih (k := False) ⟨hr, h.takes, h.read, h.dlv, h.clean, h2.alt.trans h.alt,
      (by show v.saved.2.2 = _; rw [h2.saved]; exact h.attrs), fun hm => ?_, False.elim⟩).mono fun ⟨_, b⟩ => ?_
    · exact modes_eq (h.modes hm) h2.keypad h2.mode
    · obtain ⟨op', r', e'⟩ := b _ List.mem_cons_self
      cases e'

/-! ## The modes stay off, if the configuration does not ask for them -/

theorem wret_off {env : REnv} {x : Part} {d' : SData} {s s' : US} {r : URet} {o : Outcome Scr} {base : WS}
    (hb : base = s.w)
    (ho : ∀ s1, o.state = some s1 → TameScr base s1) (e : wret s o = some (r, d', s')) : OffStays env x s s' := by
  subst hb
  have key : ∀ s1 : Scr, TameScr s.w s1 → OffStays env x s { s with w := s1.w } := fun s1 h =>
    ⟨rfl, fun _ hf => by
      show x.off (devModes s1.w.log)
      rw [h.1.2]; exact hf⟩
  cases o with
  | ok s1 => cases e; exact key s1 (ho s1 rfl)
  | err y s1 => cases e; exact key s1 (ho s1 rfl)
  | stop y => cases e

theorem off_scr {u : UEnv} (hT : TableOk u) {env : REnv} (hx : env.w = xtermDB) {op : ScrOp} {d d' : SData}
    {s s' : US} {r : URet} (hc : CleanBuf d.buf) (e : op.run u env d s = some (r, d', s')) (x : Part) :
    OffStays env x s s' := by
  have h0 : TameScr s.w { d with w := s.w } := ⟨TameSince.refl _, hc⟩
  have qt : ∀ {α : Type} {m : M α} {f : α → URet}, Keeps (OffStays env x) m →
      (ret f (m s)).map (fun (r, s) => (r, d, s)) = some (r, d', s') → OffStays env x s s' := by
    intro α m f hm e
    have hm := hm s
    cases hr : m s with
    | ok a s1 => rw [hr] at e hm; cases e; exact hm
    | err a s1 => rw [hr] at e hm; cases e; exact hm
    | stop a => rw [hr] at e; cases e
  cases op with
  | draw o =>
    simp only [ScrOp.run, Option.map_eq_some_iff] at e
    obtain ⟨b2, e1, e2⟩ := e
    cases e2
    exact OffStays.same rfl rfl
  | refresh =>
    change wret s (refreshCall u env.w { d with w := s.w }) = _ at e
    rw [hx] at e
    exact wret_off rfl (fun s1 h1 => tame_refreshCall h0 h1) e
  | guard gs =>
    change wret s (guardSession u env.w gs { d with w := s.w }) = _ at e
    rw [hx] at e
    exact wret_off rfl (fun s1 h1 => tame_session hT h0 h1) e
  | setCursorMode m =>
    refine qt ?_ e
    have h1 : Keeps (OffKept x) (termCursorMode env m) := by
      refine off_withWriter ?_
      have hh : ∀ c, NoMode (Out.cap c []) → Keeps (OffKept x) (liftW (expandOpt env.w c [])) := by
        intro c hc
        unfold expandOpt
        split
        · exact off_expand fun d hd => by rw [hc d]; exact hd
        · exact off_liftW fun s => id
      cases m
      · exact hh .cursorNormal fun _ => rfl
      · exact hh .cursorInvisible fun _ => rfl
      · exact hh .cursorNormal fun _ => rfl
    have h2 : Keeps SameButLog (termCursorMode env m) := keeps_withWriter env (keeps_liftW _)
    intro s
    cases hp : termCursorMode env m s with
    | ok p s1 => exact ⟨(h2.ok hp).2.2.2, fun _ => h1.ok hp⟩
    | err e s1 => exact ⟨(h2.err hp).2.2.2, fun _ => h1.err hp⟩
    | stop w => trivial
  | waitEvent tm => exact qt (keeps_waitEvent env tm) e
  | readEvent tm =>
    have hm := keeps_readEvent env tm (offStays_handleSignal env x) s
    change rret _ d (screenReadEvent env tm d s) = _ at e
    unfold screenReadEvent at e
    rw [M.bind_apply] at e
    cases hr : Mortal.readEvent env tm s with
    | err a s1 => rw [hr] at e hm; cases e; exact hm
    | stop a => rw [hr] at e; cases e
    | ok a s1 =>
      rw [hr] at e hm
      cases a with
      | none => cases e; exact hm
      | some ev =>
        cases ev with
        | resize z =>
          dsimp only at e
          cases hd : d.updateSize z with
          | none => rw [hd] at e; cases e
          | some d2 => rw [hd] at e; cases e; exact hm
        | _ => cases e; exact hm
  | readRaw n tm =>
    have hm := keeps_readRaw env n tm (offStays_handleSignal env x) s
    change rret _ d (screenReadRaw env n tm d s) = _ at e
    unfold screenReadRaw at e
    rw [M.bind_apply] at e
    cases hr : Mortal.readRaw env n tm s with
    | err a s1 => rw [hr] at e hm; cases e; exact hm
    | stop a => rw [hr] at e; cases e
    | ok a s1 =>
      rw [hr] at e hm
      cases a with
      | nothing => cases e; exact hm
      | raw bs => cases e; exact hm
      | event ev =>
        cases ev with
        | resize z =>
          dsimp only at e
          cases hd : d.updateSize z with
          | none => rw [hd] at e; cases e
          | some d2 => rw [hd] at e; cases e; exact hm
        | _ => cases e; exact hm

theorem off_run {u : UEnv} (hT : TableOk u) {crlf : Bool} {env : REnv} (hx : env.w = xtermDB) {x y : VLive}
    {es : List LiveEv} (h : VRun u crlf env x es y) (p : Part) : CleanBuf x.d.buf → OffStays env p x.s y.s := by
  induction h with
  | done x => exact fun _ => OffStays.same rfl rfl
  | call e l _ ih =>
    exact fun hc => Frame.trans (R := OffStays env p) (off_scr hT hx hc e p) (ih (tame_scr hT hx hc e).2)
  | window hz h1 h2 _ ih => exact fun hc => Frame.trans (R := OffStays env p) (OffStays.same rfl rfl) (ih hc)

end Mortal
