import Verif.Lemmas.VtLive
import Verif.Lemmas.Flushed

/-! # A screen is opened on an xterm, and used -/

namespace Mortal
open Spec

theorem draw_xterm : DrawDB xtermDB :=
  ⟨fun _ _ => ⟨_, rfl, fun _ => rfl⟩, ⟨_, rfl, fun _ => rfl⟩,
    fun f h ps => by cases h; rfl, ⟨_, rfl, fun _ => rfl⟩⟩

theorem logBytes_app (env : WEnv) (a b : List Out) : logBytes env (a ++ b) = logBytes env a ++ logBytes env b := by
  simp [logBytes, List.flatMap_append]

/-- What a call sent. -/
theorem newBytes_eq {s s' : US} (h : Delivered xtermDB s.w) (hp : s.w.pending = [])
    (h' : Delivered xtermDB s'.w) (hp' : s'.w.pending = []) {new : List Out} (hl : s'.w.log = s.w.log ++ new) :
    newBytes s s' = logBytes xtermDB new := by
  have e1 := delivered_all h hp
  have e2 := delivered_all h' hp'
  unfold newBytes
  rw [e1, e2, hl, logBytes_app, drop_append_length]

/-- What cannot be seen. -/
theorem silent_vt {u : UEnv} {crlf : Bool} {v : Vt} (h : v.Ready) {o : Out} (ho : Silent o) :
    (v.feed u crlf (outBytes xtermDB o)).t = v.t ∧ (v.feed u crlf (outBytes xtermDB o)).wrap = v.wrap ∧
      VFrame v (v.feed u crlf (outBytes xtermDB o)) := by
  have hg := h.ground
  have sm : ∀ (on : Bool) (w : Vt) (n : Nat), n ≠ 1049 → (w.setMode on n).t = w.t ∧
      (w.setMode on n).wrap = w.wrap := by
    intro on w n hn
    unfold Vt.setMode
    rw [if_neg hn]
    split <;> exact ⟨rfl, rfl⟩
  rcases ho with ho | ⟨c, ps, rfl, hc⟩
  · cases o with
    | text b =>
      obtain ⟨a, _, b2, d⟩ := feed_mouseText (u := u) (crlf := crlf) h ho
      exact ⟨a, b2, d⟩
    | _ => rcases ho with ho | ho | ho | ho <;> cases ho
  · rcases hc with rfl | rfl | rfl | rfl
    · have e : v.feed u crlf (outBytes xtermDB (.cap .cursorNormal ps)) = _ := feed_normal hg ps
      have f := (feed_screenCap (u := u) (crlf := crlf) h (c := .cursorNormal) (ps := ps) trivial trivial).1
      refine ⟨?_, ?_, f⟩
      · rw [e, (sm _ _ _ (by decide)).1, (sm _ _ _ (by decide)).1]
      · rw [e, (sm _ _ _ (by decide)).2, (sm _ _ _ (by decide)).2]
    · have e : v.feed u crlf (outBytes xtermDB (.cap .cursorInvisible ps)) = _ := feed_invisible hg ps
      have f := (feed_screenCap (u := u) (crlf := crlf) h (c := .cursorInvisible) (ps := ps) trivial trivial).1
      refine ⟨?_, ?_, f⟩
      · rw [e, (sm _ _ _ (by decide)).1]
      · rw [e, (sm _ _ _ (by decide)).2]
    · have e : v.feed u crlf (outBytes xtermDB (.cap .keypadXmit ps)) = _ := (feed_keypad hg ps).1
      have f := (feed_screenCap (u := u) (crlf := crlf) h (c := .keypadXmit) (ps := ps) trivial trivial).1
      refine ⟨?_, ?_, f⟩
      · rw [e]; exact (sm _ _ _ (by decide)).1
      · rw [e]; exact (sm _ _ _ (by decide)).2
    · have e : v.feed u crlf (outBytes xtermDB (.cap .keypadLocal ps)) = _ := (feed_keypad hg ps).2
      have f := (feed_screenCap (u := u) (crlf := crlf) h (c := .keypadLocal) (ps := ps) trivial trivial).1
      refine ⟨?_, ?_, f⟩
      · rw [e]; exact (sm _ _ _ (by decide)).1
      · rw [e]; exact (sm _ _ _ (by decide)).2

theorem silents_vt {u : UEnv} {crlf : Bool} : ∀ (l : List Out) {v : Vt}, v.Ready → (∀ o ∈ l, Silent o) →
    (v.feed u crlf (logBytes xtermDB l)).t = v.t ∧ (v.feed u crlf (logBytes xtermDB l)).wrap = v.wrap ∧
      VFrame v (v.feed u crlf (logBytes xtermDB l))
  | [], v, _, _ => ⟨rfl, rfl, VFrame.refl v⟩
  | o :: l, v, h, hl => by
    have eb : logBytes xtermDB (o :: l) = outBytes xtermDB o ++ logBytes xtermDB l := rfl
    rw [eb, vfeed_append]
    obtain ⟨a1, a2, a3⟩ := silent_vt (u := u) (crlf := crlf) h (hl o List.mem_cons_self)
    have h2 : (v.feed u crlf (outBytes xtermDB o)).Ready :=
      (item_keeps h (Or.inl (silent_tame (hl o List.mem_cons_self)))).2.1
    obtain ⟨b1, b2, b3⟩ := silents_vt l h2 fun x hx => hl x (List.mem_cons_of_mem _ hx)
    exact ⟨b1.trans a1, b2.trans a2, a3.trans b3⟩

/-- What `enter_screen` hands over. -/
theorem enter_out {z : Size} {w1 w2 : WS} (e : enterScreen xtermDB (some z) w1 = .ok w2) :
    ∃ new, w2.log = w1.log ++ Out.cap .enterCaMode [] :: new ∧ (∀ o ∈ new, OpenOut o) ∧
      devModes w2.log = devModes w1.log := by
  unfold enterScreen at e
  obtain ⟨w5, e5, e6⟩ := andThen_inv e
  obtain ⟨w4, e4, e5⟩ := andThen_inv e5
  change (expandOpt xtermDB .enterCaMode [] w1 >>? _) = .ok w4 at e4
  obtain ⟨wa, ea, e4⟩ := andThen_inv e4
  split at e4
  · cases e4
  rename_i l hl
  obtain ⟨wb, eb, ec⟩ := andThen_inv e4
  have la : wa.log = w1.log ++ [Out.cap .enterCaMode []] := by
    exact (expand_ok (f := fun ps => (xtermString .enterCaMode ps, true)) ea).2
  have lb : wb.log = wa.log ++ [Out.cap .changeScrollRegion [0, toU32 l]] := (expand_ok eb).2
  have hc : TameSince wb w4 :=
    tame_expand (c := .cursorHome) ⟨trivial, trivial⟩ (fun _ => rfl) rfl wb (TameSince.refl wb) w4 (by
      change (Mortal.expand xtermDB .cursorHome [] _ wb).state = _; rw [ec]; rfl)
  have hd := sana_clear (tame_attrs wb) w4 hc w5 (by rw [e5]; rfl)
  have he : TameSince wb w2 :=
    tame_expand (c := .clearScreen) (ps := []) ⟨trivial, trivial⟩ (fun _ => rfl) rfl w5 hd w2 (by
      change expand xtermDB .clearScreen [] (fun ps => (xtermString .clearScreen ps, true)) w5 = _ at e6
      rw [e6]; rfl)
  obtain ⟨⟨⟨new, ln, hn⟩, _⟩, hm⟩ := he
  refine ⟨.cap .changeScrollRegion [0, toU32 l] :: new, ?_, ?_, ?_⟩
  · rw [ln, lb, la]; simp
  · intro o ho
    rcases List.mem_cons.1 ho with rfl | ho
    · exact Or.inr ⟨_, rfl⟩
    · exact Or.inl (hn o ho)
  · rw [hm, lb, devModes_snoc, la, devModes_snoc]; rfl

theorem enter_vr {u : UEnv} {crlf : Bool} {v : Vt} {t : Term} (h : VR v t) (ha : v.alt = false) :
    ∃ t1, t.May u (.cap .enterCaMode []) t1 ∧
      VR (v.feed u crlf (outBytes xtermDB (.cap .enterCaMode []))) t1 := by
  obtain ⟨hR, hb⟩ := h
  have e : v.feed u crlf (outBytes xtermDB (.cap .enterCaMode [])) = _ := feed_enter hR.ready.ground []
  refine ⟨{ t with cell := fun _ => .torn, cur := none, last := none },
    ⟨fun t2 h2 => (by cases h2; rfl), fun h2 => (by cases h2)⟩, ?_⟩
  rw [e]
  unfold Vt.toAlternate
  dsimp only
  rw [ha]
  exact ⟨⟨⟨hR.ready.size, hR.ready.cur, fun p hp => (by cases hp), hR.ready.ground⟩, hR.size,
    fun q _ => Or.inr ⟨rfl, (by intro h; cases h), (by intro x d h; cases h)⟩,
    fun p hp => (by cases hp), fun p hp => (by cases hp), hR.attrs, rfl, rfl⟩, hb⟩

theorem enter_vt {u : UEnv} {crlf : Bool} {v : Vt} (h : v.Ready) (ha : v.alt = false) :
    let v' := v.feed u crlf (outBytes xtermDB (.cap .enterCaMode []))
    v'.Ready ∧ v'.alt = true ∧ v'.other = v.t.cell ∧ v'.saved = (v.pos, v.wrap, v.t.attrs) ∧
      v'.t.size = v.t.size ∧ v'.t.bce = v.t.bce ∧ v'.t.attrs = v.t.attrs := by
  have e : v.feed u crlf (outBytes xtermDB (.cap .enterCaMode [])) = _ := feed_enter h.ground []
  dsimp only
  rw [e]
  unfold Vt.toAlternate
  dsimp only
  rw [ha]
  exact ⟨⟨h.size, h.cur, fun p hp => (by cases hp), h.ground⟩, rfl, rfl, rfl, rfl, rfl, rfl⟩

/-- What `Screen::new` hands over, and what the device has received. -/
theorem opened_out {env : REnv} (hx : env.w = xtermDB) {cfg : PrepareConfig} {s0 s1 : US} {scr : ScreenU}
    (h : screenNew env cfg s0 = .ok scr s1) (hd : Delivered xtermDB s0.w) :
    (∃ x new, s1.w.log = s0.w.log ++ (x ++ Out.cap .enterCaMode [] :: new) ∧ (∀ o ∈ x, Silent o) ∧
      ∀ o ∈ new, OpenOut o) ∧ Delivered xtermDB s1.w ∧ CleanBuf scr.data.buf := by
  have hg : GoodDB env.w := by rw [hx]; exact good_xterm
  obtain ⟨sa, sb, e1, e2, e3, e4⟩ := screenNew_ok h
  have m1 := quietK_termSize (env := env) s0
  rw [e1] at m1
  have m2 := quietK_prepare (env := env) hg cfg sa
  rw [e2] at m2
  obtain ⟨z', w1, w2, m3, e5, m4⟩ := termEnter_parts e3
  have m : Mute env.w s0.w w1 := (Mute.trans m1 m2).trans m3
  rw [hx] at m e5 m4
  obtain ⟨x1, l1, q1⟩ := m.log
  obtain ⟨x2, l2, q2⟩ := m4.log
  obtain ⟨new, l3, q3, -⟩ := enter_out e5
  refine ⟨⟨x1, new ++ x2, by rw [l2, l3, l1]; simp, q1, ?_⟩, ?_, ?_⟩
  · intro o ho
    rcases List.mem_append.1 ho with ho | ho
    · exact q3 o ho
    · exact Or.inl (silent_tame (q2 o ho))
  · exact m4.dlv (inv_enter (delivered_inv xtermDB) (some z') w1 (m.dlv hd) w2 (by rw [e5]; rfl))
  · rw [e4]; exact clean_new _

/-- What the xterm is like after the opening. -/
theorem opened_vt {u : UEnv} {crlf : Bool} {v : Vt} (h : v.Ready) (ha : v.alt = false) {x new : List Out}
    (hx : ∀ o ∈ x, Silent o) (hn : ∀ o ∈ new, OpenOut o) :
    let l := x ++ Out.cap .enterCaMode [] :: new
    let v' := v.feed u crlf (logBytes xtermDB l)
    v'.Ready ∧ v'.alt = true ∧ v'.other = v.t.cell ∧ v'.saved = (v.pos, v.wrap, v.t.attrs) ∧
      v'.t.size = v.t.size ∧ v'.t.bce = v.t.bce ∧ v'.t.attrs = l.foldl devStep v.t.attrs := by
  dsimp only
  have eb : logBytes xtermDB (x ++ Out.cap .enterCaMode [] :: new) =
      logBytes xtermDB x ++ (outBytes xtermDB (.cap .enterCaMode []) ++ logBytes xtermDB new) :=
    logBytes_app _ _ _
  rw [eb, vfeed_append, vfeed_append]
  obtain ⟨a1, a2, a3⟩ := silents_vt (u := u) (crlf := crlf) x h hx
  obtain ⟨a4, a5, a6⟩ := items_keep (u := u) (crlf := crlf) x h fun o ho => Or.inl (silent_tame (hx o ho))
  obtain ⟨b1, b2, b3, b4, b5, b6, b7⟩ := enter_vt (u := u) (crlf := crlf) a5 (a3.alt.trans ha)
  obtain ⟨c1, c2, c3⟩ := items_keep (u := u) (crlf := crlf) new b1 hn
  refine ⟨c2, c1.alt.trans b2, (c1.other.trans b3).trans (by rw [a1]), ?_, (c1.size.trans b5).trans a3.size,
    (c1.bce.trans b6).trans a3.bce, ?_⟩
  · rw [c1.saved, b4, a2, a1]
    unfold Vt.pos
    rw [a1]
  · rw [c3, b7, a6, List.foldl_append]
    rfl

theorem reacts_join {u : UEnv} {a b : List Out} {t t1 t2 : Term} (h1 : t.Reacts u a t1) (h2 : t1.Reacts u b t2) :
    t.Reacts u (a ++ b) t2 := by
  induction h1 with
  | nil t => exact h2
  | cons m _ ih => exact .cons m (ih h2)

theorem opened_vr {u : UEnv} {crlf : Bool} {v : Vt} {t : Term} (h : VR v t) (ha : v.alt = false) {x new : List Out}
    (hx : ∀ o ∈ x, Silent o) (hn : ∀ o ∈ new, OpenOut o) :
    ∃ t', t.Reacts u (x ++ Out.cap .enterCaMode [] :: new) t' ∧
      VR (v.feed u crlf (logBytes xtermDB (x ++ Out.cap .enterCaMode [] :: new))) t' := by
  have eb : logBytes xtermDB (x ++ Out.cap .enterCaMode [] :: new) =
      logBytes xtermDB x ++ (outBytes xtermDB (.cap .enterCaMode []) ++ logBytes xtermDB new) :=
    logBytes_app _ _ _
  rw [eb, vfeed_append, vfeed_append]
  obtain ⟨t1, a1, a2⟩ := items_react (u := u) (crlf := crlf) x h fun o ho => Or.inl (silent_tame (hx o ho))
  have a3 := (silents_vt (u := u) (crlf := crlf) x h.1.ready hx).2.2
  obtain ⟨t2, b1, b2⟩ := enter_vr (u := u) (crlf := crlf) a2 (a3.alt.trans ha)
  obtain ⟨t3, c1, c2⟩ := items_react (u := u) (crlf := crlf) new b2 hn
  exact ⟨t3, reacts_join a1 (.cons b1 c1), c2⟩

/-! ## While it is used -/

/-- What is known between calls. -/
structure VInv (x : VLive) (t : Term) : Prop where
  vr : VR x.v t
  size : x.v.t.size = x.s.size
  takes : TakesAll x.s.w.os
  read : x.s.w.pending = []
  dlv : Delivered xtermDB x.s.w
  clean : CleanBuf x.d.buf
  alt : x.v.alt = true

/-- A terminal after it has read `new`, while the window kept its size or not. -/
theorem looks_vt {u : UEnv} {crlf : Bool} {v v' : Vt} {t : Term} {s s' : US} {new : List Out}
    (hl : v.Looks u crlf s s' v') (hv : VR v t) (hlog : s'.w.log = s.w.log ++ new)
    (hb : newBytes s s' = logBytes xtermDB new)
    (hready : (v.feed u crlf (logBytes xtermDB new)).Ready)
    (hattrs : (v.feed u crlf (logBytes xtermDB new)).t.attrs = new.foldl devStep v.t.attrs)
    (hbce : (v.feed u crlf (logBytes xtermDB new)).t.bce = v.t.bce)
    (hsize : (v.feed u crlf (logBytes xtermDB new)).t.size = v.t.size)
    (hre : ∃ t', t.Reacts u new t' ∧ VR (v.feed u crlf (logBytes xtermDB new)) t')
    (hkept : SizeKept s s' → s'.size = v.t.size) :
    ∃ t', Looks u t s s' t' ∧ VR v' t' ∧ v'.t.size = s'.size ∧
      v'.alt = (v.feed u crlf (logBytes xtermDB new)).alt := by
  have hno : newOut s s' = new := newOut_eq hlog
  by_cases hk : SizeKept s s'
  · have e := hl.1 hk
    rw [hb] at e
    subst e
    obtain ⟨t', r1, r2⟩ := hre
    exact ⟨t', ⟨fun _ => by rw [hno]; exact r1, fun h => absurd hk h⟩, r2,
      by rw [hsize, hkept hk], rfl⟩
  · obtain ⟨r1, r2⟩ := hl.2 hk
    rw [hb] at r1
    obtain ⟨k1, k2⟩ := reads_known r1 (vsound_ready hv.1.ready)
    have hr : v'.Ready := ⟨k1.size, k1.cur, k1.last, k2.ps.trans hready.ground⟩
    refine ⟨absT v', ⟨fun h => absurd h hk, fun _ => ⟨r2, ?_, ?_⟩⟩, vr_abs hr, r2, k2.alt⟩
    · show v'.t.attrs = _
      rw [k2.attrs, hattrs, hno, hv.1.attrs]
    · show v'.t.bce = _
      rw [k2.bce, hbce, hv.2]

theorem passed_scr {u : UEnv} {env : REnv} {op : ScrOp} {d d' : SData} {s s' : US} {r : URet}
    (h : op.run u env d s = some (r, d', s')) : Passed s s' := by
  have rt : ∀ {α : Type} {m : M α} {f : α → URet}, Keeps Passed m →
      (ret f (m s)).map (fun (r, s) => (r, d, s)) = some (r, d', s') → Passed s s' := by
    intro α m f hm e
    have hm := hm s
    cases hr : m s with
    | ok a s1 => rw [hr] at e hm; cases e; exact hm
    | err a s1 => rw [hr] at e hm; cases e; exact hm
    | stop a => rw [hr] at e; cases e
  have rr : ∀ {α : Type} {m : M (α × SData)} {f : α → URet}, Keeps Passed m →
      rret f d (m s) = some (r, d', s') → Passed s s' := by
    intro α m f hm e
    have hm := hm s
    cases hr : m s with
    | ok a s1 => rw [hr] at e hm; cases e; exact hm
    | err a s1 => rw [hr] at e hm; cases e; exact hm
    | stop a => rw [hr] at e; cases e
  have wr : ∀ {o : Outcome Scr}, wret s o = some (r, d', s') → Passed s s' := by
    intro o e
    cases o with
    | ok x => cases e; exact Passed.same rfl rfl
    | err y x => cases e; exact Passed.same rfl rfl
    | stop w => cases e
  cases op with
  | draw op =>
    simp only [ScrOp.run, Option.map_eq_some_iff] at h
    obtain ⟨b2, -, e2⟩ := h
    cases e2
    exact Passed.same rfl rfl
  | refresh => exact wr h
  | guard ops => exact wr h
  | setCursorMode m => exact rt (keeps_withWriter env (keeps_liftW _)) h
  | waitEvent t => exact rt (keeps_waitEvent env t) h
  | readEvent t => exact rr (keeps_screenReadEvent (keeps_readEvent env t (keeps_handleSignal env))) h
  | readRaw n t => exact rr (keeps_screenReadRaw (keeps_readRaw env n t (keeps_handleSignal env))) h

theorem passed_new {env : REnv} {cfg : PrepareConfig} {s0 s1 : US} {scr : ScreenU}
    (h : screenNew env cfg s0 = .ok scr s1) : Passed s0 s1 := by
  obtain ⟨sa, sb, e1, e2, e3, _⟩ := screenNew_ok h
  have p1 := keeps_termSize (R := Passed) env s0
  rw [e1] at p1
  have p2 := keeps_prepare (R := Passed) env cfg sa
  rw [e2] at p2
  have p3 := keeps_termEnter (R := Passed) env sb
  rw [e3] at p3
  exact (Passed.trans p1 p2).trans p3

theorem vlive_open {u : UEnv} {crlf : Bool} {env : REnv} (hx : env.w = xtermDB) {cfg : PrepareConfig}
    {s0 s1 : US} {scr : ScreenU} {v0 v1 : Vt} (hu : VUsed s0 v0) (hw : GoodWindow s0)
    (h : screenNew env cfg s0 = .ok scr s1) (hl : v0.Looks u crlf s0 s1 v1) :
    ∃ t0 t1, UsedBefore env.w s0 t0 ∧ Looks u t0 s0 s1 t1 ∧ VInv ⟨scr.data, s1, v1⟩ t1 := by
  obtain ⟨ops, os, n1, n2⟩ := hu.before
  have hd : Delivered xtermDB s0.w := inv_runW (delivered_inv xtermDB) ops _ _ ⟨n1, rfl⟩ n2
  obtain ⟨⟨x, new, l1, q1, q2⟩, d1, c1⟩ := opened_out hx h hd
  obtain ⟨f1, f2⟩ := (flushedK_screenNew env cfg).ok h hw.2.2
  have f2 := f2 hu.read
  have hb := newBytes_eq hd hu.read d1 f2 l1
  obtain ⟨o1, o2, -, -, o5, o6, o7⟩ := opened_vt (u := u) (crlf := crlf) hu.ready hu.alt q1 q2
  have hv := vr_abs hu.ready
  obtain ⟨t1, k1, k2, k3, k4⟩ := looks_vt hl hv l1 hb o1 o7 o6 o5 (opened_vr hv hu.alt q1 q2)
    (fun hk => ((passed_new h).kept hk).trans hu.size.symm)
  refine ⟨absT v0, t1, ⟨⟨ops, os, n1, by rw [hx]; exact n2⟩, hu.size, hu.attrs⟩, k1,
    ⟨k2, k3, f1, f2, d1, c1, k4.trans o2⟩⟩

/-- A call. -/
theorem VInv.call {u : UEnv} (hT : TableOk u) {crlf : Bool} {env : REnv} (hx : env.w = xtermDB) {x : VLive}
    {t : Term} (h : VInv x t) {op : ScrOp} {r : URet} {d : SData} {s : US} {v : Vt}
    (e : op.run u env x.d x.s = some (r, d, s)) (hl : x.v.Looks u crlf x.s s v) :
    ∃ t', Looks u t x.s s t' ∧ VInv ⟨d, s, v⟩ t' := by
  obtain ⟨⟨⟨new, l1, q⟩, d1⟩, c1⟩ := tame_scr hT hx h.clean e
  have d1 := d1 h.dlv
  obtain ⟨f1, f2⟩ := flushed_scr op e h.takes
  have f2 := f2 h.read
  have hb := newBytes_eq h.dlv h.read d1 f2 l1
  have q' : ∀ o ∈ new, OpenOut o := fun o ho => Or.inl (q o ho)
  obtain ⟨i1, i2, i3⟩ := items_keep (u := u) (crlf := crlf) new h.vr.1.ready q'
  obtain ⟨t', k1, k2, k3, k4⟩ := looks_vt hl h.vr l1 hb i2 i3 i1.bce i1.size (items_react new h.vr q')
    (fun hk => ((passed_scr e).kept hk).trans h.size.symm)
  exact ⟨t', k1, k2, k3, f1, f2, d1, c1, k4.trans (i1.alt.trans h.alt)⟩

theorem VInv.run {u : UEnv} (hT : TableOk u) {crlf : Bool} {env : REnv} (hx : env.w = xtermDB) {x y : VLive}
    {es : List LiveEv} (h : VRun u crlf env x es y) : ∀ {t : Term}, VInv x t →
    ∃ t', LiveRun u env ⟨x.d, x.s, t⟩ es ⟨y.d, y.s, t'⟩ ∧ VInv y t' := by
  induction h with
  | done x => intro t h; exact ⟨t, .done _, h⟩
  | call e l _ ih =>
    intro t h
    obtain ⟨t1, k1, k2⟩ := h.call hT hx e l
    obtain ⟨t2, r1, r2⟩ := ih k2
    exact ⟨t2, .call e k1 r1, r2⟩
  | window hz h1 h2 _ ih =>
    intro t h
    rename_i x y z v es hh
    have hr : v.Ready := ⟨h2.size, h2.cur, h2.last, h2.ps.trans h.vr.1.ready.ground⟩
    obtain ⟨t2, r1, r2⟩ := ih (t := absT v) ⟨vr_abs hr, h1, h.takes, h.read, h.dlv, h.clean, h2.alt.trans h.alt⟩
    exact ⟨t2, .window (t := absT v) hz h1 (h2.attrs.trans h.vr.1.attrs) (h2.bce.trans h.vr.2.symm) r1, r2⟩

end Mortal
