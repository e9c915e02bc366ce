import Verif.Lemmas.VtOpen
import Verif.Props.Live
import Verif.Props.Vt

/-! # C69: a screen on an xterm, from the bytes it receives -/

namespace Mortal
open Spec

theorem picture_not_torn (u : UEnv) (c : Cell) : picture u c ≠ .torn := by
  unfold picture
  split <;> exact nofun

/-- What a terminal that understands terminfo displays, the xterm displays. -/
theorem displays_vt {u : UEnv} {v : Vt} {t : Term} {b : Buf} (h : VR v t) (hd : Spec.Displays u t b) :
    Spec.Displays u v.t b := by
  have hs : v.t.size = t.size := h.1.size
  refine ⟨hs.trans hd.1, fun p c hp hc => ?_⟩
  have e := hd.2 p c hp hc
  have := (h.1.cell p (by rw [hs, hd.1]; exact hp)).of_ne (a := t.cell p) (by
    rw [e]
    split
    · exact nofun
    · exact picture_not_torn u c)
  rw [this, e]

/-- **C69.** A screen is opened on an xterm that shows anything and was used in any way before. The program
then makes any calls of the screen, with any results, while signals arrive and the window changes its size
at any time, even between two bytes. When a refresh or a guard ends and the last change of size has been
reported, the xterm, from the bytes alone, shows on its alternate buffer all that was asked for, with its
cursor where it should be, the attributes reset, and no line wrap pending. -/
theorem C69_live_screen {u : UEnv} (hT : TableOk u) {crlf : Bool} {env : REnv} (hx : env.w = xtermDB)
    {cfg : PrepareConfig} {s0 s1 : US} {scr : ScreenU} {v0 v1 : Vt}
    (hu : VUsed s0 v0) (hw : GoodWindow s0)
    (hnew : screenNew env cfg s0 = .ok scr s1) (hl : v0.Looks u crlf s0 s1 v1)
    {es : List LiveEv} {op : ScrOp} {r : URet} {kept : Bool} {y : VLive}
    (hrun : VRun u crlf env ⟨scr.data, s1, v1⟩ (es ++ [.call op r kept]) y)
    (hn : ∀ op' r' k', LiveEv.call op' r' k' ∈ es ++ [LiveEv.call op r kept] → NarrowCall u op')
    (hop : op = .refresh ∨ ∃ gs, op = .guard gs)
    (hup : upToDate (decide (SizeKept s0 s1)) es = true) :
    ∃ b, runOps u ((es ++ [LiveEv.call op r kept]).flatMap LiveEv.asked) (Buf.new scr.data.buf.size) = some b ∧
      Spec.Displays u y.v.t b ∧ y.v.t.cur = some (target b) ∧ y.v.wrap = false ∧ y.v.t.attrs = .plain ∧
      y.v.alt = true ∧ y.v.ps = .ground ∧ y.s.w.pending = [] := by
  obtain ⟨t0, t1, h1, h2, h3⟩ := vlive_open hx hu hw hnew hl
  obtain ⟨t', h4, h5⟩ := h3.run hT hx hrun
  obtain ⟨b, c1, c2, c3, c4, c5, -⟩ := C59_live_screen hT (by rw [hx]; exact good_xterm)
    (by rw [hx]; exact draw_xterm) h1 hw hnew h2 h4 hn hop hup
  have hc := h5.vr.1.cur _ c3
  exact ⟨b, c1, displays_vt h5.vr c2, hc.1, hc.2, h5.vr.1.attrs.trans c4, h5.alt, h5.vr.1.ready.ground, c5⟩

/-- **C69** with two-column characters, under the conditions of `C59_live_wide`. -/
theorem C69_live_wide {u : UEnv} (hT : TableOk u) {crlf : Bool} {env : REnv} (hx : env.w = xtermDB)
    {cfg : PrepareConfig} {s0 s1 : US} {scr : ScreenU} {v0 v1 : Vt}
    (hu : VUsed s0 v0) (hw : GoodWindow s0)
    (hnew : screenNew env cfg s0 = .ok scr s1) (hl : v0.Looks u crlf s0 s1 v1)
    {es : List LiveEv} {op : ScrOp} {r : URet} {kept : Bool} {y : VLive}
    (hrun : VRun u crlf env ⟨scr.data, s1, v1⟩ (es ++ [.call op r kept]) y)
    (hn : WideHist u env scr.data s1 (es ++ [LiveEv.call op r kept]))
    (hop : op = .refresh ∨ ∃ gs, op = .guard gs)
    (hup : upToDate (decide (SizeKept s0 s1)) es = true) :
    ∃ b, runOps u ((es ++ [LiveEv.call op r kept]).flatMap LiveEv.asked) (Buf.new scr.data.buf.size) = some b ∧
      Spec.Displays u y.v.t b ∧
      (¬ RightHalf u b (target b) → y.v.t.cur = some (target b) ∧ y.v.wrap = false) ∧
      y.v.t.attrs = .plain ∧ y.v.alt = true ∧ y.v.ps = .ground ∧ y.s.w.pending = [] := by
  obtain ⟨t0, t1, h1, h2, h3⟩ := vlive_open hx hu hw hnew hl
  obtain ⟨t', h4, h5⟩ := h3.run hT hx hrun
  obtain ⟨b, c1, c2, c3, c4, c5, -⟩ := C59_live_wide hT (by rw [hx]; exact good_xterm)
    (by rw [hx]; exact draw_xterm) h1 hw hnew h2 h4 hn hop hup
  exact ⟨b, c1, displays_vt h5.vr c2, fun h => h5.vr.1.cur _ (c3 h), h5.vr.1.attrs.trans c4, h5.alt,
    h5.vr.1.ready.ground, c5⟩

/-! ## A concrete case -/

theorem reads_feed (u : UEnv) (crlf : Bool) : ∀ (bs : Bytes) (v : Vt), Vt.Reads u crlf v bs (v.feed u crlf bs)
  | [], v => .done v
  | b :: bs, v => .byte (reads_feed u crlf bs (v.byte u crlf b))

theorem reads_then {u : UEnv} {crlf : Bool} {v v1 v2 : Vt} {bs : Bytes} (h : Vt.Reads u crlf v bs v1)
    (hr : v1.Resized v2) : Vt.Reads u crlf v bs v2 := by
  induction h with
  | done => exact .resized hr (.done _)
  | byte _ ih => exact .byte (ih hr)
  | resized h _ ih => exact .resized h (ih hr)

theorem vlooks_exists (u : UEnv) (crlf : Bool) (v : Vt) (s s' : US) (h : GoodSize s'.size) :
    ∃ v', v.Looks u crlf s s' v' := by
  by_cases hk : SizeKept s s'
  · exact ⟨_, fun _ => rfl, fun h => (h hk).elim⟩
  · refine ⟨{ v.feed u crlf (newBytes s s') with
      t := { (v.feed u crlf (newBytes s s')).t with size := s'.size, cur := some ⟨0, 0⟩, last := none } },
      fun h => (hk h).elim, fun _ => ⟨reads_then (reads_feed u crlf _ v) ?_, rfl⟩⟩
    exact ⟨h, ⟨_, rfl, h.1, h.2.1⟩, fun _ hp => (by cases hp), rfl, rfl, rfl, rfl, rfl, rfl, rfl, rfl⟩

theorem vlive_of_trace {u : UEnv} {crlf : Bool} {env : REnv} : ∀ {ops : List ScrOp} {d d' : SData} {s s' : US}
    {rs : List (URet × Bool)} (v : Vt), GoodWindow s → liveTrace u env ops d s = some (rs, d', s') →
    ∃ v', VRun u crlf env ⟨d, s, v⟩ (callsOf ops rs) ⟨d', s', v'⟩ := by
  intro ops
  induction ops with
  | nil => intro d d' s s' rs v _ h; cases h; exact ⟨v, .done _⟩
  | cons op ops ih =>
    intro d d' s s' rs v hg h
    simp only [liveTrace, Option.bind_eq_bind, Option.bind_eq_some_iff] at h
    obtain ⟨⟨r, d1, s1⟩, h1, ⟨rs1, d2, s2⟩, h2, h3⟩ := h
    cases h3
    have hg1 := (passed_scr h1).window (fun h => (flushed_scr op h1 h).1) hg
    obtain ⟨v1, hl⟩ := vlooks_exists u crlf v s s1 hg1.1.1
    obtain ⟨v', hr⟩ := ih v1 hg1 h2
    exact ⟨v', .call h1 hl hr⟩

/-- An xterm of 2 by 3 with `x` everywhere, the cursor at the end of a full line. -/
def liveVt : Vt :=
  { demoVt with
    t := { demoVt.t with size := ⟨2, 3⟩, cell := fun _ => .narrow ['x'] .plain, cur := some ⟨1, 2⟩ }
    wrap := true
    bottom := 1 }

theorem liveVt_ready : liveVt.Ready :=
  ⟨by decide, ⟨⟨1, 2⟩, rfl, by decide⟩, fun _ h => (by cases h), rfl⟩

/-- The entry for xterm. -/
def xtermR : REnv := { demoEnvR with w := xtermDB }

theorem liveUS_window : GoodWindow liveUS := by
  refine ⟨?_, ?_, ?_⟩
  · unfold ScreenSize GoodSize; decide
  · intro st hst z hz
    have : ∀ st ∈ liveUS.sched, st.resize = none ∨ st.resize = some ⟨2, 2⟩ := by decide
    rcases this st hst with h | h
    · rw [h] at hz; cases hz
    · rw [h] at hz; cases hz; unfold ScreenSize GoodSize; decide
  · decide

theorem liveVt_used : VUsed liveUS liveVt := by
  refine ⟨⟨[], liveUS.w.os, ?_, rfl⟩, rfl, liveVt_ready, rfl, rfl, rfl⟩
  intro n hn
  have : ∀ r ∈ liveUS.w.os, r = .all ∨ r = .eintr := by decide
  rcases this _ hn with h | h <;> cases h

/-- Non-trivial case: as for C59, the xterm showed `x` everywhere, the window becomes smaller while the
program waits, which is reported, and the last call is a guard that draws. -/
example : ∃ scr s1 v1 y, VUsed liveUS liveVt ∧ GoodWindow liveUS ∧
    screenNew xtermR demoCfg liveUS = .ok scr s1 ∧ liveVt.Looks demoEnv true liveUS s1 v1 ∧
    VRun demoEnv true xtermR ⟨scr.data, s1, v1⟩ (liveEvs ++ [LiveEv.call liveLast .unit true]) y ∧
    (∀ op' r' k', LiveEv.call op' r' k' ∈ liveEvs ++ [LiveEv.call liveLast .unit true] →
      NarrowCall demoEnv op') ∧
    upToDate (decide (SizeKept liveUS s1)) liveEvs = true := by
  obtain ⟨scr, s1, hnew, hf⟩ := okOf_any (r := screenNew xtermR demoCfg liveUS)
    (f := fun x => decide (SizeKept liveUS x.2 ∧
      (liveTrace demoEnv xtermR [.draw (.writeAt ⟨0, 1⟩ ['a', 'b']), .refresh, .readEvent none, liveLast]
        x.1.data x.2).map Prod.fst = some [(.unit, true), (.unit, true),
          (.event (some (.resize ⟨2, 2⟩)), false), (.unit, true)])) (by decide +kernel)
  obtain ⟨hk, ht⟩ := of_decide_eq_true hf
  obtain ⟨⟨rs, d, s⟩, ht, hrs⟩ := Option.map_eq_some_iff.mp ht
  cases hrs
  have hg := (passed_new hnew).window (fun h => ((flushedK_screenNew xtermR demoCfg).ok hnew h).1) liveUS_window
  obtain ⟨v2, hr⟩ := vlive_of_trace (crlf := true) (liveVt.feed demoEnv true (newBytes liveUS s1)) hg ht
  refine ⟨scr, s1, _, _, liveVt_used, liveUS_window, hnew, ⟨fun _ => rfl, fun h => (h hk).elim⟩, hr, ?_, ?_⟩
  · intro op' r' k' hm
    simp only [liveEvs, liveLast, List.cons_append, List.nil_append, List.mem_cons, LiveEv.call.injEq,
      List.not_mem_nil, or_false] at hm
    rcases hm with ⟨rfl, -⟩ | ⟨rfl, -⟩ | ⟨rfl, -⟩ | ⟨rfl, -⟩
    · exact ⟨nofun, by decide, by unfold ThinMarks; decide⟩
    · trivial
    · trivial
    · intro op hop
      simp only [List.mem_cons, GOp.draw.injEq, List.not_mem_nil, or_false, reduceCtorEq] at hop
      subst hop
      exact ⟨nofun, by decide, by unfold ThinMarks; decide⟩
  · rw [decide_eq_true hk]; rfl

/-- Non-trivial case with two-column characters. -/
example : ∃ scr s1 v1 y, VUsed liveUS liveVt ∧ GoodWindow liveUS ∧
    screenNew xtermR demoCfg liveUS = .ok scr s1 ∧ liveVt.Looks demoEnv true liveUS s1 v1 ∧
    VRun demoEnv true xtermR ⟨scr.data, s1, v1⟩ (wideEvs ++ [LiveEv.call wideLast .unit true]) y ∧
    WideHist demoEnv xtermR scr.data s1 (wideEvs ++ [LiveEv.call wideLast .unit true]) ∧
    upToDate (decide (SizeKept liveUS s1)) wideEvs = true := by
  obtain ⟨scr, s1, hnew, hf⟩ := okOf_any (r := screenNew xtermR demoCfg liveUS)
    (f := fun x => decide (SizeKept liveUS x.2 ∧
      (liveTrace demoEnv xtermR (wideOps ++ [wideLast]) x.1.data x.2).map Prod.fst =
        some [(.unit, true), (.unit, true), (.unit, true), (.unit, true), (.unit, true),
          (.event (some (.resize ⟨2, 2⟩)), false), (.unit, true)] ∧
      WideHist demoEnv xtermR x.1.data x.2 (wideEvs ++ [LiveEv.call wideLast .unit true])))
    (by decide +kernel)
  obtain ⟨hk, ht, hh⟩ := of_decide_eq_true hf
  obtain ⟨⟨rs, d, s⟩, ht, hrs⟩ := Option.map_eq_some_iff.mp ht
  cases hrs
  have hg := (passed_new hnew).window (fun h => ((flushedK_screenNew xtermR demoCfg).ok hnew h).1) liveUS_window
  obtain ⟨v2, hr⟩ := vlive_of_trace (crlf := true) (liveVt.feed demoEnv true (newBytes liveUS s1)) hg ht
  refine ⟨scr, s1, _, _, liveVt_used, liveUS_window, hnew, ⟨fun _ => rfl, fun h => (h hk).elim⟩, hr, hh, ?_⟩
  rw [decide_eq_true hk]; rfl

/-- What the device receives in a session without a change of size, and what the xterm shows of it after
`refresh`. -/
example : (match screenNew xtermR demoCfg liveUS with
    | .ok scr s1 => (liveTrace demoEnv xtermR [.draw (.writeAt ⟨0, 1⟩ ['a', 'b']), .refresh] scr.data s1).map
        fun x => (List.range 3).map fun i =>
          (liveVt.feed demoEnv true (newBytes liveUS x.2.2)).t.cell ⟨0, i⟩
    | _ => none) = some [.narrow [' '] .plain, .narrow ['a'] .plain, .narrow ['b'] .plain] := by decide +kernel

end Mortal
