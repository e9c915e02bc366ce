import Verif.Lemmas.LiveScr
import Verif.Lemmas.ScreenResize

/-! # A whole life of a screen -/

namespace Mortal
open Spec

theorem runOps_snoc (u : UEnv) (a c : List BufOp) (b : Buf) :
    runOps u (a ++ c) b = (runOps u a b).bind (runOps u c) := by
  induction a generalizing b with
  | nil => rfl
  | cons op a ih =>
    show (op.run u b).bind _ = ((op.run u b).bind _).bind _
    cases op.run u b with
    | none => rfl
    | some b1 => exact ih b1

/-- A size has been reported. -/
theorem InView.resized {u : UEnv} (hT : TableOk u) {env : WEnv} (hdb : DrawDB env) {m k : Bool}
    {s : Scr} {t : Term} (h : InView u env m k s t) {z : Size} (hz : ScreenSize z) (ht : t.size = z)
    (hs : m = true → SafeOp u s.buf (.resize z))
    {d : SData} (e : s.updateSize z = some d) : InView u env m true { d with w := s.w } t := by
  obtain ⟨tf, h1, h2, h3, h4, -⟩ := h
  refine ⟨_, h1.resized hT hdb hz hs e, h2, h3, h4, fun _ => ⟨ht, fun hc => ?_⟩⟩
  unfold SData.updateSize at e
  simp only [Option.bind_eq_bind, Option.bind_eq_some_iff] at e
  obtain ⟨b, -, e⟩ := e
  cases e
  cases hc

/-- What holds all the time. -/
structure LiveInv (u : UEnv) (env : WEnv) (m : Bool) (z0 : Size) (k : Bool) (ops : List BufOp) (x : Spec.Live) :
    Prop where
  view : InView u env m k { x.d with w := x.s.w } x.t
  size : x.t.size = x.s.size
  win : GoodWindow x.s
  content : ∃ b, runOps u ops (Buf.new z0) = some b ∧ x.d.buf = b.wb x.d.buf.back

theorem sizeKept_sched {s s' : US} (h : s'.sched = s.sched) : SizeKept s s' := by
  intro st hst
  unfold stepsUsed at hst
  rw [h, Nat.sub_self] at hst
  cases hst

theorem newOut_eq {s s' : US} {new : List Out} (h : s'.w.log = s.w.log ++ new) : newOut s s' = new := by
  unfold newOut
  rw [h, drop_append_length]

theorem MuteUS.newOut {env : WEnv} {s s' : US} (h : MuteUS env s s') : ∀ o ∈ newOut s s', Silent o := by
  obtain ⟨new, l, hs⟩ := h.log
  rw [newOut_eq l]; exact hs

/-- A call that changes nothing on the terminal. -/
theorem LiveInv.mute {u : UEnv} {env : WEnv} {m : Bool} {z0 : Size} {k : Bool} {ops : List BufOp} {x : Spec.Live}
    (h : LiveInv u env m z0 k ops x) {s : US} {t : Term} (hm : MuteUS env x.s s) (hp : Passed x.s s)
    (hl : Looks u x.t x.s s t) :
    LiveInv u env m z0 (k && decide (SizeKept x.s s)) ops ⟨x.d, s, t⟩ := by
  have hv : InView u env m k { x.d with w := s.w } x.t := h.view.mute hm
  have hw : GoodWindow s := hp.window hm.os h.win
  by_cases hk : SizeKept x.s s
  · have ht : t = x.t := silent_reacts hm.newOut (hl.1 hk)
    subst ht
    rw [decide_eq_true hk, Bool.and_true]
    exact ⟨hv, h.size.trans (hp.kept hk).symm, hw, h.content⟩
  · obtain ⟨l1, l2, l3⟩ := hl.2 hk
    rw [decide_eq_false hk, Bool.and_false]
    refine ⟨hv.unknown ?_ l3, l1, hw, h.content⟩
    rw [l2]
    exact silent_fold hm.newOut _

/-- A call that showed what was asked for. -/
def ShownNow (u : UEnv) (env : WEnv) (k : Bool) (x : Spec.Live) : Prop :=
  (k = true → After u (fun _ => False) { x.d with w := x.s.w } x.t) ∧ x.s.w.pending = [] ∧
    Delivered env x.s.w

/-- The call shows what was asked for. -/
def Shows : ScrOp → Prop
  | .refresh => True
  | .guard _ => True
  | _ => False

theorem LiveInv.shown {u : UEnv} {env : WEnv} {m : Bool} {z0 : Size} {k : Bool}
    {ops new : List BufOp} {x : Spec.Live} (h : LiveInv u env m z0 k ops x) {b : Buf} {s' : Scr}
    (hb : runOps u ops (Buf.new z0) = some b)
    (hd : Dropped u env m k new b { x.d with w := x.s.w } s' x.t) {t : Term}
    (hl : Looks u x.t x.s { x.s with w := s'.w } t) :
    LiveInv u env m z0 k (ops ++ new) ⟨s'.toSData, { x.s with w := s'.w }, t⟩ ∧
      ShownNow u env k ⟨s'.toSData, { x.s with w := s'.w }, t⟩ := by
  obtain ⟨⟨out, l, v⟩, hp, b', hc1, hc2⟩ := hd
  have hk : SizeKept x.s { x.s with w := s'.w } := sizeKept_sched rfl
  have hr := hl.1 hk
  rw [newOut_eq (new := out) l] at hr
  obtain ⟨v1, v2⟩ := v t hr
  have hsz := (reacts_kept hr).1
  refine ⟨⟨v1, hsz.trans h.size, ⟨h.win.1, h.win.2.1, ?_⟩, b', ?_, hc2⟩, v2, hp, ?_⟩
  · obtain ⟨_, _, _, _, h4, _⟩ := v1; exact h4
  · rw [runOps_snoc, hb]; exact hc1
  · obtain ⟨_, g, _⟩ := v1; exact g.dlv

theorem guardSession_no_error {u : UEnv} {env : WEnv} : ∀ {ops : List GOp} {s s' : Scr} {e : IoErr},
    guardSession u env ops s ≠ .err e s'
  | [], s, s', e => C56_drop_no_error u env s s' e
  | op :: ops, s, s', e => by
    intro h
    rw [guardSession] at h
    cases hr : op.run u env s with
    | ok s1 => rw [hr] at h; exact guardSession_no_error h
    | err x s1 => rw [hr] at h; exact guardSession_no_error h
    | stop x => rw [hr] at h; cases h

/-- The condition on a call. -/
def CallOk (u : UEnv) (env : REnv) (d : SData) (s : US) (op : ScrOp) (r : URet) : Bool → Prop
  | false => NarrowCall u op
  | true => WideCall u env d s op r

theorem LiveInv.step {u : UEnv} (hT : TableOk u) {env : REnv} (hg : GoodDB env.w)
    (hdb : DrawDB env.w) {m : Bool} {z0 : Size} {k : Bool} {ops : List BufOp} {x : Spec.Live}
    (h : LiveInv u env.w m z0 k ops x) {op : ScrOp} {r : URet} (hn : CallOk u env x.d x.s op r m)
    {d : SData} {s : US} {t : Term} (e : op.run u env x.d x.s = some (r, d, s)) (hl : Looks u x.t x.s s t) :
    LiveInv u env.w m z0
        ((LiveEv.call op r (decide (SizeKept x.s s))).told || (k && decide (SizeKept x.s s)))
        (ops ++ (LiveEv.call op r (decide (SizeKept x.s s))).asked) ⟨d, s, t⟩ ∧
      (Shows op → ShownNow u env.w k ⟨d, s, t⟩ ∧ SizeKept x.s s) := by
  have hos : OsOk ({ x.d with w := x.s.w } : Scr).w := h.win.2.2
  obtain ⟨b, hb1, hb2⟩ := h.content
  -- a call whose result is of no interest
  have plainCall : MuteUS env.w x.s s → Passed x.s s → d = x.d →
      (LiveEv.call op r (decide (SizeKept x.s s))).told = false →
      (LiveEv.call op r (decide (SizeKept x.s s))).asked = [] → ¬ Shows op →
      LiveInv u env.w m z0
        ((LiveEv.call op r (decide (SizeKept x.s s))).told || (k && decide (SizeKept x.s s)))
        (ops ++ (LiveEv.call op r (decide (SizeKept x.s s))).asked) ⟨d, s, t⟩ ∧
      (Shows op → ShownNow u env.w k ⟨d, s, t⟩ ∧ SizeKept x.s s) := by
    intro hm hp hd h1 h2 h3
    rw [h1, h2, hd, Bool.false_or, List.append_nil]
    exact ⟨h.mute hm hp hl, fun h => (h3 h).elim⟩
  -- a size was reported
  have sizeCall : ∀ z, MuteUS env.w x.s s → Passed x.s s → z = s.size → x.d.updateSize z = some d →
      (LiveEv.call op r (decide (SizeKept x.s s))).told = true →
      (LiveEv.call op r (decide (SizeKept x.s s))).asked = [.resize z] → ¬ Shows op →
      (m = true → SafeOp u x.d.buf (.resize z)) →
      LiveInv u env.w m z0
        ((LiveEv.call op r (decide (SizeKept x.s s))).told || (k && decide (SizeKept x.s s)))
        (ops ++ (LiveEv.call op r (decide (SizeKept x.s s))).asked) ⟨d, s, t⟩ ∧
      (Shows op → ShownNow u env.w k ⟨d, s, t⟩ ∧ SizeKept x.s s) := by
    intro z hm hp hz hd h1 h2 h3 hsafe
    rw [h1, h2, Bool.true_or]
    have h' := h.mute hm hp hl
    refine ⟨⟨?_, h'.size, h'.win, ?_⟩, fun h => (h3 h).elim⟩
    · refine InView.resized hT hdb (s := { x.d with w := s.w }) h'.view (z := z) ?_ ?_ hsafe hd
      · rw [hz]; exact h'.win.1
      · rw [hz]; exact h'.size
    · have hd' := hd
      unfold SData.updateSize at hd'
      simp only [Option.bind_eq_bind, Option.bind_eq_some_iff] at hd'
      obtain ⟨b1, e1, e2⟩ := hd'
      cases e2
      refine ⟨b1, ?_, rfl⟩
      rw [runOps_snoc, hb1]
      show ((BufOp.resize z).run u b).bind _ = _
      rw [← resize_wb u x.d.buf.back z b, ← hb2]
      show (x.d.buf.resize z).bind _ = _
      rw [e1]; rfl
  cases op with
  | draw o =>
    simp only [ScrOp.run, Option.map_eq_some_iff] at e
    obtain ⟨b2, e1, e2⟩ := e
    cases e2
    have hk : SizeKept x.s x.s := sizeKept_sched rfl
    have h' := h.mute (MuteUS.same rfl) (Passed.same rfl rfl) hl
    rw [decide_eq_true hk, Bool.and_true] at h' ⊢
    have e1' := e1
    have ho : DrawOk u x.d.buf o m := by cases m <;> exact hn
    rw [hb2, op_wb u _ o ho.noResize] at e1'
    cases hb3 : o.run u b with
    | none => rw [hb3] at e1'; cases e1'
    | some b1 =>
      rw [hb3] at e1'
      cases e1'
      refine ⟨⟨?_, h'.size, h'.win, b1, ?_, rfl⟩, fun h => h.elim⟩
      · exact h'.view.draw hT hdb ho e1
      · rw [runOps_snoc, hb1]
        show (o.run u b).bind _ = _
        rw [hb3]; rfl
  | refresh =>
    change wret x.s (refreshCall u env.w { x.d with w := x.s.w }) = some (r, d, s) at e
    cases hr : ({ x.d with w := x.s.w } : Scr).refresh u env.w with
    | err y s1 => exact ((noErrS_refresh hg hdb _ hos).err hr).elim
    | stop y => unfold refreshCall at e; rw [hr] at e; cases e
    | ok s1 =>
      have hgrid : GridOk x.d.buf := by obtain ⟨_, g, _⟩ := h.view; exact g.held.grid
      rw [C56_refresh_call u env.w _ s1 hgrid hr] at e
      cases e
      have hk := keeps_refresh u env.w _ s1 (by rw [hr]; rfl)
      have hdr : Dropped u env.w m k [] b { x.d with w := x.s.w } s1 x.t :=
        ⟨h.view.refresh hT hg hdb (by rintro rfl; exact hn) hr, refresh_pending hr, b, rfl, by
          rw [hk]; dsimp only; rw [hb2]; rfl⟩
      have hsk : SizeKept x.s { x.s with w := s1.w } := sizeKept_sched rfl
      obtain ⟨g1, g2⟩ := h.shown hb1 hdr hl
      rw [decide_eq_true hsk, Bool.and_true]
      exact ⟨g1, fun _ => ⟨g2, hsk⟩⟩
  | guard gs =>
    change wret x.s (guardSession u env.w gs { x.d with w := x.s.w }) = some (r, d, s) at e
    cases hr : guardSession u env.w gs { x.d with w := x.s.w } with
    | err y s1 => exact (guardSession_no_error hr).elim
    | stop y => rw [hr] at e; cases e
    | ok s1 =>
      rw [hr] at e
      cases e
      have hdr := h.view.guard hT hg hdb (b := b) hb2 (by cases m <;> exact hn) hr
      have hsk : SizeKept x.s { x.s with w := s1.w } := sizeKept_sched rfl
      obtain ⟨g1, g2⟩ := h.shown hb1 hdr hl
      rw [decide_eq_true hsk, Bool.and_true]
      exact ⟨g1, fun _ => ⟨g2, hsk⟩⟩
  | setCursorMode cm =>
    have hm := quietK_cursorMode (env := env) hg cm x.s
    have hp : Keeps Passed (termCursorMode env cm) := keeps_withWriter env (keeps_liftW _)
    have hp := hp x.s
    change (ret _ (termCursorMode env cm x.s)).map _ = _ at e
    cases hr : termCursorMode env cm x.s with
    | ok a s1 =>
      rw [hr] at e hm hp; cases e
      exact plainCall hm hp rfl rfl rfl id
    | err a s1 =>
      rw [hr] at e hm hp; cases e
      exact plainCall hm hp rfl rfl rfl id
    | stop a => rw [hr] at e; cases e
  | waitEvent tm =>
    have hm : Keeps (MuteUS env.w) (Mortal.waitEvent env tm) := keeps_waitEvent env tm
    have hm := hm x.s
    have hp : Keeps Passed (Mortal.waitEvent env tm) := keeps_waitEvent env tm
    have hp := hp x.s
    change (ret _ (Mortal.waitEvent env tm x.s)).map _ = _ at e
    cases hr : Mortal.waitEvent env tm x.s with
    | ok a s1 =>
      rw [hr] at e hm hp; cases e
      exact plainCall hm hp rfl rfl rfl id
    | err a s1 =>
      rw [hr] at e hm hp; cases e
      exact plainCall hm hp rfl rfl rfl id
    | stop a => rw [hr] at e; cases e
  | readEvent tm =>
    have hm := quietK_readEvent (env := env) hg tm x.s
    have hp := keeps_readEvent (R := Passed) env tm (keeps_handleSignal env) x.s
    change rret _ x.d (screenReadEvent env tm x.d x.s) = _ at e
    unfold screenReadEvent at e
    rw [M.bind_apply] at e
    cases hr : Mortal.readEvent env tm x.s with
    | err a s1 =>
      rw [hr] at e hm hp; cases e
      exact plainCall hm hp rfl rfl rfl id
    | stop a => rw [hr] at e; cases e
    | ok a s1 =>
      rw [hr] at e hm hp
      cases a with
      | none => cases e; exact plainCall hm hp rfl rfl rfl id
      | some ev =>
        cases ev with
        | resize z =>
          dsimp only at e
          cases hd : x.d.updateSize z with
          | none => rw [hd] at e; cases e
          | some d' =>
            rw [hd] at e
            cases e
            exact sizeCall z hm hp (readEvent_resize hr) hd rfl rfl id (by rintro rfl; exact hn)
        | _ => cases e; exact plainCall hm hp rfl rfl rfl id
  | readRaw n tm =>
    have hm := quietK_readRaw (env := env) hg n tm x.s
    have hp := keeps_readRaw (R := Passed) env n tm (keeps_handleSignal env) x.s
    change rret _ x.d (screenReadRaw env n tm x.d x.s) = _ at e
    unfold screenReadRaw at e
    rw [M.bind_apply] at e
    cases hr : Mortal.readRaw env n tm x.s with
    | err a s1 =>
      rw [hr] at e hm hp; cases e
      exact plainCall hm hp rfl rfl rfl id
    | stop a => rw [hr] at e; cases e
    | ok a s1 =>
      rw [hr] at e hm hp
      cases a with
      | nothing => cases e; exact plainCall hm hp rfl rfl rfl id
      | raw bs => cases e; exact plainCall hm hp rfl rfl rfl id
      | event ev =>
        cases ev with
        | resize z =>
          dsimp only at e
          cases hd : x.d.updateSize z with
          | none => rw [hd] at e; cases e
          | some d' =>
            rw [hd] at e
            cases e
            exact sizeCall z hm hp (readRaw_resize hr) hd rfl rfl id (by rintro rfl; exact hn)
        | _ => cases e; exact plainCall hm hp rfl rfl rfl id

/-! ## Opening -/

theorem Passed.kept_left {a b c : US} (h1 : Passed a b) (h2 : Passed b c) (hk : SizeKept a c) :
    SizeKept a b := by
  have e1 := h1.used.1
  have e2 := h2.used.1
  have e3 := (h1.trans h2).used.1
  rw [e1, e2, ← List.append_assoc] at e3
  have : stepsUsed a b ++ stepsUsed b c = stepsUsed a c := List.append_cancel_right e3
  intro st hst
  exact hk st (by rw [← this]; exact List.mem_append_left _ hst)

/-- What `Terminal::enter_screen` hands over. -/
theorem termEnter_parts {env : REnv} {s s' : US} (h : termEnter env s = .ok () s') :
    ∃ z w1 w2, Mute env.w s.w w1 ∧ enterScreen env.w (some z) w1 = .ok w2 ∧ Mute env.w w2 s'.w := by
  unfold termEnter withWriter at h
  cases hm : enterM env s with
  | stop x => rw [hm] at h; cases h
  | err x s1 => rw [hm] at h; obtain ⟨_, s2, h1, h2⟩ := M.bind_ok h; cases h2
  | ok x s1 =>
    rw [hm] at h
    obtain ⟨_, s2, h1, h2⟩ := M.bind_ok h
    cases h2
    have hq := quietK_liftW (quiet_sessionEnd env.w) s1
    change liftW _ s1 = _ at h1
    rw [h1] at hq
    have none_err : ∀ {w w' : WS}, (∀ a b, env.w.db .changeScrollRegion = some a →
        env.w.db .cursorHome = some b → False) → enterScreen env.w none w ≠ .ok w' := by
      intro w w' hno e
      unfold enterScreen at e
      cases ha : env.w.db .changeScrollRegion with
      | none => rw [ha] at e; cases e
      | some a =>
        cases hb : env.w.db .cursorHome with
        | none => rw [ha, hb] at e; cases e
        | some b => exact hno a b ha hb
    unfold enterM at hm
    cases ha : env.w.db .changeScrollRegion with
    | none =>
      rw [ha] at hm
      obtain ⟨w, h5, rfl⟩ := liftW_ok hm
      exact (none_err (fun a b ea eb => by rw [ha] at ea; cases ea) h5).elim
    | some a =>
      cases hb : env.w.db .cursorHome with
      | none =>
        rw [ha, hb] at hm
        obtain ⟨w, h5, rfl⟩ := liftW_ok hm
        exact (none_err (fun a b ea eb => by rw [hb] at eb; cases eb) h5).elim
      | some b =>
        rw [ha, hb] at hm
        obtain ⟨z, s3, h3, h4⟩ := M.bind_ok hm
        obtain ⟨w, h5, rfl⟩ := liftW_ok h4
        have h6 : Keeps (MuteUS env.w) getWinsize :=
          keeps_sysCall.bind fun _ => Keeps.getS.bind fun _ => Keeps.pure _
        have h6 := h6 s
        rw [h3] at h6
        exact ⟨z, s3.w, w, h6, h5, hq⟩

theorem live_open {u : UEnv} (hT : TableOk u) {env : REnv} (hg : GoodDB env.w) (hdb : DrawDB env.w)
    {cfg : PrepareConfig} {s0 s1 : US} {scr : ScreenU} {t0 t1 : Term}
    (hu : UsedBefore env.w s0 t0) (hw : GoodWindow s0) (h : screenNew env cfg s0 = .ok scr s1)
    (hl : Looks u t0 s0 s1 t1) (wd : Bool) :
    LiveInv u env.w wd scr.data.buf.size (decide (SizeKept s0 s1)) [] ⟨scr.data, s1, t1⟩ := by
  obtain ⟨sa, sb, e1, e2, e3, e4⟩ := screenNew_ok h
  have m1 := quietK_termSize (env := env) s0
  have p1 := keeps_termSize (R := Passed) env s0
  rw [e1] at m1 p1
  have m2 := quietK_prepare (env := env) hg cfg sa
  have p2 := keeps_prepare (R := Passed) env cfg sa
  rw [e2] at m2 p2
  have p3 := keeps_termEnter (R := Passed) env sb
  rw [e3] at p3
  obtain ⟨z', w1, w2, m3, e5, m4⟩ := termEnter_parts e3
  have hz := (termSize_ok e1).2.1
  have m : Mute env.w s0.w w1 := (Mute.trans m1 m2).trans m3
  have hp : Passed s0 s1 := (Passed.trans p1 p2).trans p3
  obtain ⟨⟨ops, os, n1, n2⟩, hsz, hat⟩ := hu
  obtain ⟨tr, ht⟩ := runW_traceW env.w ops _ _ n2
  obtain ⟨g1, g2⟩ := trace_follow env.w hdb.attrs ops (WS.new os) s0.w plainTheme tr rfl rfl ht
  have hdv : Delivered env.w s0.w := inv_runW (delivered_inv env.w) ops _ _ ⟨n1, rfl⟩ n2
  have hthm : devAttrs s0.w.log = view s0.w.theme := g2.trans (by rw [g1])
  obtain ⟨x1, l1, q1⟩ := m.log
  obtain ⟨x2, l2, q2⟩ := m4.log
  have hd1 : devAttrs w1.log = view w1.theme := by
    rw [m.theme, l1]
    unfold devAttrs
    rw [List.foldl_append, silent_fold q1]
    exact hthm
  have hlk : Lk w1 t0 := ⟨hd1, by rw [hat, hthm, m.theme]⟩
  obtain ⟨new, l3, pl, k1, k2⟩ := enter_blank (u := u) hdb.attrs hlk e5
  have hlog : s1.w.log = s0.w.log ++ (x1 ++ new ++ x2) := by
    rw [l2, l3, l1]; simp only [List.append_assoc]
  have hno : newOut s0 s1 = x1 ++ new ++ x2 := newOut_eq hlog
  have hd2 : devAttrs s1.w.log = view s1.w.theme := by
    rw [m4.theme, l2]
    unfold devAttrs
    rw [List.foldl_append, silent_fold q2]
    exact k1.dev
  have hat1 : (newOut s0 s1).foldl devStep t0.attrs = .plain := by
    rw [hat]
    unfold devAttrs
    rw [hno, ← List.foldl_append, ← hlog]
    show devAttrs s1.w.log = _
    rw [hd2, m4.theme, k2]
    rfl
  have hattrs : t1.attrs = .plain ∧ t1.bce = t0.bce ∧ t1.size = s1.size := by
    by_cases hk : SizeKept s0 s1
    · obtain ⟨r1, r2, r3⟩ := reacts_kept (hl.1 hk)
      exact ⟨r2.trans hat1, r3, r1.trans (hsz.trans (hp.kept hk).symm)⟩
    · obtain ⟨r1, r2, r3⟩ := hl.2 hk
      exact ⟨r2.trans hat1, r3, r1⟩
  have hwa : GoodWindow sa := p1.window m1.os hw
  have hos : OsOk s1.w := by
    refine m4.os ?_
    exact inv_enter (os_inv env.w) (some z') w1 (m.os hw.2.2) w2 (by rw [e5]; rfl)
  have hdl : Delivered env.w s1.w := by
    refine m4.dlv ?_
    exact inv_enter (delivered_inv env.w) (some z') w1 (m.dlv hdv) w2 (by rw [e5]; rfl)
  have hheld : Held u (fun _ => False) { scr.data with w := s1.w }
      { Term.blank scr.data.buf.size with bce := t0.bce } := by
    refine held_start hT (z := scr.data.buf.size) ?_ e4 rfl ⟨hd2, ?_⟩
    · rw [hz]; exact hwa.1
    · show DevAttrs.plain = view s1.w.theme
      rw [m4.theme, k2]; rfl
  have hcalm : CalmScr u env.w wd ⟨{ scr.data with w := s1.w },
      { Term.blank scr.data.buf.size with bce := t0.bce }⟩ := by
    cases wd with
    | true =>
      exact ⟨⟨hheld, fun _ _ _ => (by intro h; cases h), hdl⟩, fun _ _ _ h => (by cases h)⟩
    | false =>
      refine ⟨by rw [mem_nil_false]; exact hheld, Or.inr fun q => ⟨_, _, rfl⟩, ?_, hdl⟩
      show NoWide u scr.data.buf
      rw [show scr.data.buf = Buf.new scr.data.buf.size from congrArg SData.buf e4]
      intro c hc
      rw [show c = Cell.default from List.eq_of_mem_replicate hc]
      exact not_wide_of_head_space hT.space rfl
  refine ⟨⟨{ Term.blank scr.data.buf.size with bce := t0.bce }, hcalm, ?_, ?_, hos,
    fun hk => ?_⟩, hattrs.2.2, hp.window (fun _ => hos) hw, Buf.new scr.data.buf.size, rfl, ?_⟩
  · exact hattrs.1
  · exact hattrs.2.1
  · have hk := of_decide_eq_true hk
    have hz0 : scr.data.buf.size = t0.size := by
      rw [hz, hsz]
      exact p1.kept (p1.kept_left (Passed.trans p2 p3) hk)
    have hr := hl.1 hk
    rw [hno] at hr
    obtain ⟨ta, r1, r2⟩ := reacts_append hr
    obtain ⟨tb, r3, r4⟩ := reacts_append r1
    have := silent_reacts q2 r2
    subst this
    have := silent_reacts q1 r3
    subst this
    have := reacts_play pl r4
    subst this
    rw [hz0]
    exact ⟨rfl, fun _ => rfl⟩
  · have hb : scr.data.buf = Buf.new scr.data.buf.size := congrArg SData.buf e4
    show scr.data.buf = (Buf.new scr.data.buf.size).wb scr.data.buf.back
    have : (Buf.new scr.data.buf.size).wb (Buf.new scr.data.buf.size).back =
      Buf.new scr.data.buf.size := rfl
    rw [show scr.data.buf.back = (Buf.new scr.data.buf.size).back from congrArg Buf.back hb, this]
    exact hb

/-! ## A whole history -/

/-- The condition on a history. -/
def HistOk (u : UEnv) (env : REnv) (d : SData) (s : US) (es : List LiveEv) : Bool → Prop
  | false => ∀ op r b, LiveEv.call op r b ∈ es → NarrowCall u op
  | true => WideHist u env d s es

theorem HistOk.first {u : UEnv} {env : REnv} {d : SData} {s : US} {op : ScrOp} {r : URet} {k : Bool}
    {es : List LiveEv} : ∀ {m : Bool}, HistOk u env d s (.call op r k :: es) m → CallOk u env d s op r m
  | false, h => h op r k List.mem_cons_self
  | true, h => h.1

theorem HistOk.next {u : UEnv} {env : REnv} {d d' : SData} {s s' : US} {op : ScrOp} {r : URet} {k : Bool}
    {es : List LiveEv} : ∀ {m : Bool}, HistOk u env d s (.call op r k :: es) m →
    op.run u env d s = some (r, d', s') → HistOk u env d' s' es m
  | false, h, _ => fun op r b hm => h op r b (List.mem_cons_of_mem _ hm)
  | true, h, e => h.2 d' s' e

theorem HistOk.window {u : UEnv} {env : REnv} {d : SData} {s : US} {z : Size}
    {es : List LiveEv} : ∀ {m : Bool}, HistOk u env d s (.window z :: es) m →
    HistOk u env d { s with size := z } es m
  | false, h => fun op r b hm => h op r b (List.mem_cons_of_mem _ hm)
  | true, h => h

theorem HistOk.split {u : UEnv} {env : REnv} {m : Bool} {x y : Spec.Live} {es fs : List LiveEv}
    (h : LiveRun u env x es y) (ho : HistOk u env x.d x.s (es ++ fs) m) :
    HistOk u env x.d x.s es m ∧ HistOk u env y.d y.s fs m := by
  cases m with
  | false =>
    exact ⟨fun op r b hm => ho op r b (List.mem_append_left _ hm),
      fun op r b hm => ho op r b (List.mem_append_right _ hm)⟩
  | true =>
    induction h with
    | done x => exact ⟨trivial, ho⟩
    | call e l _ ih =>
      obtain ⟨h1, h2⟩ := ho
      have := ih (h2 _ _ e)
      refine ⟨⟨h1, fun d' s' e' => ?_⟩, this.2⟩
      rw [e] at e'
      cases e'
      exact this.1
    | window hz h1 h2 h3 _ ih => exact ih ho

theorem LiveInv.run {u : UEnv} (hT : TableOk u) {env : REnv} (hg : GoodDB env.w)
    (hdb : DrawDB env.w) {m : Bool} {z0 : Size} {x y : Spec.Live} {es : List LiveEv}
    (h : LiveRun u env x es y) (hn : HistOk u env x.d x.s es m) :
    ∀ {k : Bool} {ops : List BufOp}, LiveInv u env.w m z0 k ops x →
    LiveInv u env.w m z0 (upToDate k es) (ops ++ es.flatMap LiveEv.asked) y := by
  induction h with
  | done x => intro k ops h; simpa [upToDate] using h
  | call e l _ ih =>
    intro k ops h
    have h1 := (h.step hT hg hdb hn.first e l).1
    have := ih (hn.next e) h1
    rw [List.append_assoc] at this
    exact this
  | window hz h1 h2 h3 _ ih =>
    intro k ops h
    refine ih hn.window (k := false) (ops := ops) ?_
    exact ⟨h.view.unknown h2 h3, h1, ⟨hz, h.win.2.1, h.win.2.2⟩, h.content⟩

theorem upToDate_append (k : Bool) : ∀ (a b : List LiveEv),
    upToDate k (a ++ b) = upToDate (upToDate k a) b
  | [], b => rfl
  | .window _ :: a, b => upToDate_append false a b
  | .call _ _ _ :: a, b => upToDate_append _ a b

theorem live_split {u : UEnv} {env : REnv} {x y : Spec.Live} {a b : List LiveEv}
    (h : LiveRun u env x (a ++ b) y) : ∃ x', LiveRun u env x a x' ∧ LiveRun u env x' b y := by
  induction a generalizing x with
  | nil => exact ⟨x, .done x, h⟩
  | cons ev a ih =>
    cases h with
    | call e l r =>
      obtain ⟨x', h1, h2⟩ := ih r
      exact ⟨x', .call e l h1, h2⟩
    | window z h1 h2 h3 r =>
      obtain ⟨x', h4, h5⟩ := ih r
      exact ⟨x', .window z h1 h2 h3 h4, h5⟩

/-- What a refresh or a guard leaves at the end of a history. -/
theorem live_shown {u : UEnv} (hT : TableOk u) {env : REnv} (hg : GoodDB env.w)
    (hdb : DrawDB env.w) {cfg : PrepareConfig} {s0 s1 : US} {scr : ScreenU} {t0 t1 : Term}
    (hu : UsedBefore env.w s0 t0) (hw : GoodWindow s0)
    (hnew : screenNew env cfg s0 = .ok scr s1) (hl : Looks u t0 s0 s1 t1)
    {es : List LiveEv} {op : ScrOp} {r : URet} {kept : Bool} {y : Spec.Live}
    (hrun : LiveRun u env ⟨scr.data, s1, t1⟩ (es ++ [.call op r kept]) y) {m : Bool}
    (hn : HistOk u env scr.data s1 (es ++ [LiveEv.call op r kept]) m)
    (hop : op = .refresh ∨ ∃ gs, op = .guard gs)
    (hup : upToDate (decide (SizeKept s0 s1)) es = true) :
    ∃ b, runOps u ((es ++ [LiveEv.call op r kept]).flatMap LiveEv.asked) (Buf.new scr.data.buf.size) = some b ∧
      y.d.buf = b.wb y.d.buf.back ∧ After u (fun _ => False) { y.d with w := y.s.w } y.t ∧
      CalmScr u env.w m ⟨{ y.d with w := y.s.w }, y.t⟩ ∧ y.s.w.pending = [] ∧
      y.s.w.dev = logBytes env.w y.s.w.log := by
  have h0 := live_open hT hg hdb hu hw hnew hl m
  obtain ⟨x, h1, h2⟩ := live_split hrun
  obtain ⟨hn1, hn2⟩ := HistOk.split h1 hn
  have hx := LiveInv.run hT hg hdb h1 hn1 h0
  rw [hup] at hx
  have hshow : Shows op := by rcases hop with rfl | ⟨gs, rfl⟩ <;> trivial
  cases h2 with
  | call e l h3 =>
    cases h3
    obtain ⟨g1, g2⟩ := hx.step hT hg hdb hn2.first e l
    obtain ⟨⟨g3, g4, g5⟩, hk⟩ := g2 hshow
    rw [decide_eq_true hk, Bool.and_true, Bool.or_true] at g1
    obtain ⟨b, c1, c2⟩ := g1.content
    have ha := g3 rfl
    obtain ⟨tf, n1, -, -, -, n3⟩ := g1.view
    have htf := (n3 rfl).2 ha.noClear
    dsimp only at htf
    subst htf
    refine ⟨b, ?_, c2, ha, n1, g4, delivered_all g5 g4⟩
    rw [List.flatMap_append, List.flatMap_singleton]
    rw [decide_eq_true hk]
    simpa using c1

end Mortal
