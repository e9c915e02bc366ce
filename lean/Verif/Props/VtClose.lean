import Verif.Lemmas.VtClose
import Verif.Props.VtLive
import Verif.Props.ScreenSession

/-! # C70: an xterm after a screen has been closed -/

namespace Mortal
open Spec

theorem vready_pos {v : Vt} (h : v.Ready) :
    v.t.cur = some ⟨min v.pos.line (v.t.size.lines - 1), min v.pos.column (v.t.size.columns - 1)⟩ := by
  obtain ⟨a, b⟩ := ready_pos h
  have h1 : v.pos.line < v.t.size.lines := b.1
  have h2 : v.pos.column < v.t.size.columns := b.2
  rw [a, Nat.min_eq_left (by omega), Nat.min_eq_left (by omega)]

/-- **C70.** A screen is opened on an xterm that shows anything, used in any way, and dropped; from the
drop on nothing fails. The window may change its size at any time, even between two bytes. Afterwards the
xterm is on its normal buffer again, with the attributes it had, and shows its cursor. If the window has
kept its size, every cell of the normal buffer is as before, and so is the place of the cursor. -/
theorem C70_after {u : UEnv} (hT : TableOk u) {crlf : Bool} {env : REnv} (hx : env.w = xtermDB)
    {cfg : PrepareConfig} {s0 s1 s3 : US} {scr : ScreenU} {v0 v1 v3 : Vt}
    (hu : VUsed s0 v0) (hw : TakesAll s0.w.os)
    (hnew : screenNew env cfg s0 = .ok scr s1) (hl : v0.Looks u crlf s0 s1 v1)
    {es : List LiveEv} {y : VLive} (hrun : VRun u crlf env ⟨scr.data, s1, v1⟩ es y)
    (hf : NoFailures y.s) (hdrop : screenDrop env scr.state y.s = .ok () s3)
    (hl3 : y.v.Looks u crlf y.s s3 v3) :
    v3.alt = false ∧ v3.t.attrs = v0.t.attrs ∧ v3.visible = true ∧ v3.ps = .ground ∧ s3.w.pending = [] ∧
    (SizeKept s0 s1 → Steady es → SizeKept y.s s3 →
      v3.t.cell = v0.t.cell ∧ v3.t.cur = v0.t.cur ∧ v3.wrap = v0.wrap ∧ v3.t.size = v0.t.size) := by
  have h1 := vheld_open hx hu hw hnew hl
  have h2 := h1.run hT hx hrun
  obtain ⟨x, sr, e1, q, l1, l2, hd⟩ := drop_out hx hf hdrop
  have hd := hd h2.dlv
  obtain ⟨-, f2⟩ := (flushedK_screenDrop env scr.state).ok hdrop h2.takes
  have f2 := f2 h2.read
  have hb := newBytes_eq h2.dlv h2.read hd f2 l2
  obtain ⟨a1, a2, a3, a4, a5, a6, a7, a8, -⟩ := drop_vt (u := u) (crlf := crlf) h2.ready h2.alt q
  rw [← hb] at a1 a2 a3 a4 a5 a6 a7 a8
  obtain ⟨g1, g2, g3⟩ := looks_same h2.ready hl3 a1
  refine ⟨g2.alt.trans a2, g2.attrs.trans (a5.trans h2.attrs), g2.visible.trans a7, g1.ground, f2,
    fun k1 k2 k3 => ?_⟩
  obtain ⟨b1, b2, b3⟩ := h2.kept ⟨k1, k2⟩
  rw [g3 k3]
  refine ⟨a3.trans b2, ?_, a4.trans (by rw [b3]), a6.trans b1⟩
  rw [a8, b3, b1]
  exact (vready_pos hu.ready).symm

theorem termEnter_modes {env : REnv} (hx : env.w = xtermDB) {s s' : US} (h : termEnter env s = .ok () s') :
    devModes s'.w.log = devModes s.w.log := by
  obtain ⟨s1, h1, h2, -⟩ := withWriter_ok h
  rw [core_log h2]
  show devModes s1.w.log = _
  unfold enterM at h1
  rw [hx] at h1
  obtain ⟨z, s2, h3, h4⟩ := M.bind_ok h1
  obtain ⟨w, h5, rfl⟩ := liftW_ok h4
  obtain ⟨new, -, -, h6⟩ := enter_out h5
  have h7 : Keeps SameCore getWinsize := keeps_sysCall.bind fun _ => Keeps.getS.bind fun _ => Keeps.pure _
  have h8 := core_log (h7.ok h3)
  show devModes w.log = _
  rw [h6, h8]
  rfl

/-- **C70** for the modes: if the keypad, the mouse and its motion were not reported before, they are not
reported afterwards. -/
theorem C70_modes {u : UEnv} (hT : TableOk u) {crlf : Bool} {env : REnv} (hx : env.w = xtermDB)
    {cfg : PrepareConfig} {s0 s1 s3 : US} {scr : ScreenU} {v0 v1 v3 : Vt}
    (hu : VUsed s0 v0) (hw : TakesAll s0.w.os)
    (hnew : screenNew env cfg s0 = .ok scr s1) (hl : v0.Looks u crlf s0 s1 v1)
    {es : List LiveEv} {y : VLive} (hrun : VRun u crlf env ⟨scr.data, s1, v1⟩ es y)
    (hf : NoFailures y.s) (hdrop : screenDrop env scr.state y.s = .ok () s3)
    (hl3 : y.v.Looks u crlf y.s s3 v3)
    (hlog : devModes s0.w.log = ⟨false, false, false⟩) (hoff : v0.Modes ⟨false, false, false⟩) :
    v3.Modes ⟨false, false, false⟩ := by
  have h1 := vheld_open hx hu hw hnew hl
  have h2 := h1.run hT hx hrun
  obtain ⟨x, sr, e1, q, l1, l2, hd⟩ := drop_out hx hf hdrop
  have hd := hd h2.dlv
  obtain ⟨-, f2⟩ := (flushedK_screenDrop env scr.state).ok hdrop h2.takes
  have f2 := f2 h2.read
  have hb := newBytes_eq h2.dlv h2.read hd f2 l2
  obtain ⟨a1, -, -, -, -, -, -, -, a9⟩ := drop_vt (u := u) (crlf := crlf) h2.ready h2.alt q
  have a9 := a9 _ (h2.modes (by rw [hlog]; exact hoff))
  rw [← hb] at a1 a9
  obtain ⟨g1, g2, g3⟩ := looks_same h2.ready hl3 a1
  rw [← devModes_app, ← l1] at a9
  have key : ∀ p : Part, p.off (devModes sr.w.log) := by
    intro p
    obtain ⟨sa, sb, k1, k2, k3, -⟩ := screenNew_ok hnew
    obtain ⟨c1, -⟩ := termSize_ok k1
    obtain ⟨p1, p2⟩ := prepare_ok k2
    have e3 := restore_ok e1
    rw [p2] at e3
    rw [core_log e3]
    refine restored_off _ _ (fun _ => by rw [hx]; rfl) fun hun => ?_
    show p.off (devModes y.s.w.log)
    refine (off_run hT hx hrun p h1.clean).2 ?_ ?_
    · intro c hc
      have := (C37_open env cfg scr s0 s1 hnew).2.2.2
      change s1.resume = _ at hc
      rw [this] at hc
      cases hc
      exact hun
    · show p.off (devModes s1.w.log)
      rw [termEnter_modes hx k3, core_log p1]
      refine prepared_off hun ?_
      show p.off (devModes sa.w.log)
      rw [show sa.w.log = s0.w.log from core_log c1, hlog]
      cases p
      · exact ⟨rfl, rfl⟩
      · exact rfl
  have hm := key .mouse
  have hp := key .keypad
  generalize devModes sr.w.log = d at hm hp a9
  obtain ⟨a, b, c⟩ := d
  obtain ⟨rfl, rfl⟩ := hm
  cases hp
  exact vsame_modes g2 a9

/-! ### Examples -/

/-- Nothing fails and the window keeps its size. -/
def closeUS : US := { smallUS 0 with sched := List.replicate 60 (okStep 0) }

/-- A session on the xterm, with keypad and mouse: the terminal at first, the calls and whether the window
kept its size, and the terminal before the drop. -/
def closeRun : Option (US × List (URet × Bool) × US) :=
  match screenNew xtermR demoCfg closeUS with
  | .ok scr s1 =>
    match liveTrace demoEnv xtermR [.draw (.writeAt ⟨0, 1⟩ ['a', 'b']), .setCursorMode .invisible, .refresh]
        scr.data s1 with
    | some (rs, _, s2) =>
      match screenDrop xtermR scr.state s2 with
      | .ok _ s3 => if SizeKept closeUS s1 ∧ SizeKept s2 s3 ∧ (∀ st ∈ s2.sched, st.res = .ok 0) ∧
          (∀ r ∈ s2.w.os, r = .all ∨ r = .eintr) then some (s2, rs, s3) else none
      | _ => none
    | none => none
  | _ => none

/-- What is seen of an xterm. -/
def vtFlags (v : Vt) : List Bool :=
  [v.alt, v.visible, v.keypad, v.mode 1, v.mode 1006, v.mode 1002, v.mode 1003, v.wrap]

/-- While the screen is open the xterm is on its alternate buffer, reports keys, buttons and motion and
hides its cursor. -/
example : closeRun.map (fun x => vtFlags (liveVt.feed demoEnv true (newBytes closeUS x.1))) =
    some [true, false, true, true, true, true, true, false] ∧
    closeRun.map (fun x => (liveVt.feed demoEnv true (newBytes closeUS x.1)).t.cell ⟨0, 1⟩) =
      some (.narrow ['a'] .plain) := by decide +kernel

/-- Afterwards all is as before. -/
example : closeRun.map (fun x => vtFlags (liveVt.feed demoEnv true (newBytes closeUS x.2.2))) =
    some [false, true, false, false, false, false, false, true] ∧
    closeRun.map (fun x => (liveVt.feed demoEnv true (newBytes closeUS x.2.2)).t.cell ⟨0, 1⟩) =
      some (.narrow ['x'] .plain) ∧
    closeRun.map (fun x => (liveVt.feed demoEnv true (newBytes closeUS x.2.2)).pos) = some ⟨1, 2⟩ := by
  decide +kernel

/-- All hypotheses of C70 are met. -/
example : ∃ scr s1 v1 es y s3 v3, VUsed closeUS liveVt ∧ TakesAll closeUS.w.os ∧
    screenNew xtermR demoCfg closeUS = .ok scr s1 ∧ liveVt.Looks demoEnv true closeUS s1 v1 ∧
    VRun demoEnv true xtermR ⟨scr.data, s1, v1⟩ es y ∧ NoFailures y.s ∧
    screenDrop xtermR scr.state y.s = .ok () s3 ∧ y.v.Looks demoEnv true y.s s3 v3 ∧
    SizeKept closeUS s1 ∧ Steady es ∧ SizeKept y.s s3 ∧ es.length = 3 ∧
    devModes closeUS.w.log = ⟨false, false, false⟩ ∧ liveVt.Modes ⟨false, false, false⟩ := by
  have h : (closeRun.map fun x => decide (x.2.1 = [(.unit, true), (.unit, true), (.unit, true)])) = some true := by
    decide +kernel
  obtain ⟨⟨s2, rs, s3⟩, h, hrs⟩ := Option.map_eq_some_iff.1 h
  have hrs : rs = _ := of_decide_eq_true hrs
  unfold closeRun at h
  split at h
  · rename_i scr s1 hnew
    split at h
    · rename_i rs' d s2' ht
      split at h
      · rename_i u' s3' hd
        split at h
        · rename_i hk
          cases h
          obtain ⟨k1, k2, k3, k4⟩ := hk
          have hg : GoodWindow closeUS := by
            refine ⟨?_, ?_, ?_⟩
            · unfold ScreenSize GoodSize; decide
            · intro st hst z hz
              have : ∀ st ∈ closeUS.sched, st.resize = none := by decide
              rw [this st hst] at hz; cases hz
            · decide
          have hg1 := (passed_new hnew).window (fun h => ((flushedK_screenNew xtermR demoCfg).ok hnew h).1) hg
          obtain ⟨v2, hr⟩ := vlive_of_trace (crlf := true) (liveVt.feed demoEnv true (newBytes closeUS s1)) hg1 ht
          refine ⟨scr, s1, _, _, _, s3, _, ?_, hg.2.2, hnew, ⟨fun _ => rfl, fun h => (h k1).elim⟩, hr,
            ⟨fun st hst => ⟨0, k3 st hst⟩, k4⟩, hd, ⟨fun _ => rfl, fun h => (h k2).elim⟩, k1, ?_, k2, ?_, rfl,
            ⟨rfl, rfl, rfl, rfl, rfl⟩⟩
          · refine ⟨⟨[], closeUS.w.os, ?_, rfl⟩, rfl, liveVt_ready, rfl, rfl, rfl⟩
            intro n hn
            have : ∀ r ∈ closeUS.w.os, r = .all ∨ r = .eintr := by decide
            rcases this _ hn with h | h <;> cases h
          · rw [hrs]
            intro e he
            simp only [callsOf, List.zipWith_cons_cons, List.zipWith_nil_left, List.mem_cons, List.not_mem_nil,
              or_false] at he
            rcases he with rfl | rfl | rfl <;> exact ⟨_, _, rfl⟩
          · rw [hrs]; rfl
        · cases h
      · cases h
    · cases h
  · cases h

end Mortal
