import Verif.Lemmas.LiveRun
import Verif.Lemmas.LiveWideDec
import Verif.Props.ScreenSession

/-!
# A screen shows what was asked for, whatever the window does (C59)

The program uses `Screen` on Unix through its public methods, with signals, suspensions and changes of
the window's size at any time.
-/

namespace Mortal
open Spec

/-- **C59.** A screen is opened on a terminal that has been used before and shows anything. Then a
program draws (without two-column characters), refreshes, uses write guards, changes the cursor's mode,
waits and reads, in any order and with any results, while signals arrive and the window changes its size.
When a refresh or a guard ends and the last change of size has been reported as an event, the terminal
shows all that was asked for, its cursor is where it should be, the attributes are reset, and everything
has been sent. -/
theorem C59_live_screen {u : UEnv} (hT : TableOk u) {env : REnv} (hg : GoodDB env.w)
    (hdb : DrawDB env.w) {cfg : PrepareConfig} {s0 s1 : US} {scr : ScreenU} {t0 t1 : Term}
    (hu : UsedBefore env.w s0 t0) (hw : GoodWindow s0)
    (hnew : screenNew env cfg s0 = .ok scr s1) (hl : Looks u t0 s0 s1 t1)
    {es : List LiveEv} {op : ScrOp} {r : URet} {kept : Bool} {y : Spec.Live}
    (hrun : LiveRun u env ⟨scr.data, s1, t1⟩ (es ++ [.call op r kept]) y)
    (hn : ∀ op' r' k', LiveEv.call op' r' k' ∈ es ++ [LiveEv.call op r kept] → NarrowCall u op')
    (hop : op = .refresh ∨ ∃ gs, op = .guard gs)
    (hup : upToDate (decide (SizeKept s0 s1)) es = true) :
    ∃ b, runOps u ((es ++ [LiveEv.call op r kept]).flatMap LiveEv.asked) (Buf.new scr.data.buf.size) = some b ∧
      Displays u y.t b ∧ y.t.cur = some (target b) ∧ y.t.attrs = .plain ∧
      y.s.w.pending = [] ∧ y.s.w.dev = logBytes env.w y.s.w.log := by
  obtain ⟨b, c1, c2, ha, n1, g4, g5⟩ := live_shown hT hg hdb hu hw hnew hl hrun (m := false) hn hop hup
  have n1 : NInv u env.w [] _ := n1
  have hnar : AllNarrow y.t := by
    rcases n1.narrow with hc | hc
    · have := ha.noClear; dsimp only at this hc; rw [this] at hc; cases hc
    · exact hc
  have hd := ha.displays hT.space
  have hc := ha.atTarget (by
    obtain ⟨a, d, e⟩ := hnar (target y.d.buf)
    dsimp only
    rw [e]; intro h; cases h)
  dsimp only at hd hc
  rw [c2] at hd hc
  exact ⟨b, c1, hd, hc, by rw [ha.lk.term, ha.plain]; rfl, g4, g5⟩

/-- **C59** with two-column characters. The same, when the program writes no character where it does not
fit, no reported size cuts a two-column character in half, and no cell is uncovered with the content that
was last drawn there (`WideHist`; C18 shows that these conditions are needed). The cursor is where it
should be, except possibly when that is in the right half of a two-column character. -/
theorem C59_live_wide {u : UEnv} (hT : TableOk u) {env : REnv} (hg : GoodDB env.w)
    (hdb : DrawDB env.w) {cfg : PrepareConfig} {s0 s1 : US} {scr : ScreenU} {t0 t1 : Term}
    (hu : UsedBefore env.w s0 t0) (hw : GoodWindow s0)
    (hnew : screenNew env cfg s0 = .ok scr s1) (hl : Looks u t0 s0 s1 t1)
    {es : List LiveEv} {op : ScrOp} {r : URet} {kept : Bool} {y : Spec.Live}
    (hrun : LiveRun u env ⟨scr.data, s1, t1⟩ (es ++ [.call op r kept]) y)
    (hn : WideHist u env scr.data s1 (es ++ [LiveEv.call op r kept]))
    (hop : op = .refresh ∨ ∃ gs, op = .guard gs)
    (hup : upToDate (decide (SizeKept s0 s1)) es = true) :
    ∃ b, runOps u ((es ++ [LiveEv.call op r kept]).flatMap LiveEv.asked) (Buf.new scr.data.buf.size) = some b ∧
      Displays u y.t b ∧ (¬ RightHalf u b (target b) → y.t.cur = some (target b)) ∧ y.t.attrs = .plain ∧
      y.s.w.pending = [] ∧ y.s.w.dev = logBytes env.w y.s.w.log := by
  obtain ⟨b, c1, c2, ha, -, g4, g5⟩ := live_shown hT hg hdb hu hw hnew hl hrun (m := true) hn hop hup
  have hd := ha.displays hT.space
  have hc : ¬ RightHalf u y.d.buf (target y.d.buf) → y.t.cur = some (target y.d.buf) := by
    intro hn
    refine ha.atTarget ?_
    have hin := target_in ha.grid.size
    have hlt : numOf y.d.buf.size (target y.d.buf) < y.d.buf.buffer.length := by
      have := ha.grid.len
      dsimp only at this
      rw [this]; exact numOf_lt hin
    have h1 := hd.2 (target y.d.buf) _ hin (List.getElem?_eq_getElem hlt)
    dsimp only at h1 ⊢
    rw [h1, if_neg hn]
    unfold picture
    split <;> (intro e; cases e)
  dsimp only at hd
  rw [c2] at hd hc
  exact ⟨b, c1, hd, hc, by rw [ha.lk.term, ha.plain]; rfl, g4, g5⟩

/-! ## A concrete case -/

theorem looks_exists (u : UEnv) (t : Term) (s s' : US) : ∃ t', Looks u t s s' t' := by
  by_cases hk : SizeKept s s'
  · obtain ⟨t', h⟩ := reacts_exists u (newOut s s') t
    exact ⟨t', fun _ => h, fun h => (h hk).elim⟩
  · exact ⟨⟨s'.size, fun _ => .torn, none, none, (newOut s s').foldl devStep t.attrs, t.bce⟩,
      fun h => (hk h).elim, fun _ => ⟨rfl, rfl, rfl⟩⟩

/-- The results of these calls, made one after another. -/
def liveTrace (u : UEnv) (env : REnv) :
    List ScrOp → SData → US → Option (List (URet × Bool) × SData × US)
  | [], d, s => some ([], d, s)
  | op :: ops, d, s => do
    let (r, d1, s1) ← op.run u env d s
    let (rs, d2, s2) ← liveTrace u env ops d1 s1
    pure ((r, decide (SizeKept s s1)) :: rs, d2, s2)

/-- The history that these calls make up. -/
def callsOf (ops : List ScrOp) (rs : List (URet × Bool)) : List LiveEv :=
  List.zipWith (fun op r => .call op r.1 r.2) ops rs

theorem live_of_trace {u : UEnv} {env : REnv} : ∀ {ops : List ScrOp} {d d' : SData} {s s' : US}
    {rs : List (URet × Bool)} (t : Term), liveTrace u env ops d s = some (rs, d', s') →
    ∃ t', LiveRun u env ⟨d, s, t⟩ (callsOf ops rs) ⟨d', s', t'⟩ := by
  intro ops
  induction ops with
  | nil => intro d d' s s' rs t h; cases h; exact ⟨t, .done _⟩
  | cons op ops ih =>
    intro d d' s s' rs t h
    simp only [liveTrace, Option.bind_eq_bind, Option.bind_eq_some_iff] at h
    obtain ⟨⟨r, d1, s1⟩, h1, ⟨rs1, d2, s2⟩, h2, h3⟩ := h
    cases h3
    obtain ⟨t1, hl⟩ := looks_exists u t s s1
    obtain ⟨t', hr⟩ := ih t1 h2
    exact ⟨t', .call h1 hl hr⟩

/-- The window becomes smaller while the program waits. -/
def liveUS : US :=
  { smallUS 0 with
    sched := List.replicate 7 (okStep 0) ++ ⟨[.winch], .ok 0, some ⟨2, 2⟩⟩ :: List.replicate 3 (okStep 0) }

/-- A terminal that shows anything. -/
def liveT : Term := ⟨⟨2, 3⟩, fun _ => .torn, none, none, .plain, true⟩

/-- What the program does at first. -/
def liveEvs : List LiveEv :=
  [.call (.draw (.writeAt ⟨0, 1⟩ ['a', 'b'])) .unit true, .call .refresh .unit true,
    .call (.readEvent none) (.event (some (.resize ⟨2, 2⟩))) false]

/-- Its last call. -/
def liveLast : ScrOp := .guard [.draw (.writeAt ⟨1, 0⟩ ['c']), .refresh, .setCursorMode .invisible]

/-- Non-trivial case: the terminal showed anything before, the window becomes smaller while the program
waits, which is reported, and the last call is a guard that draws. -/
theorem live_case : ∃ scr s1 t1 y, scr.data.buf.size = ⟨2, 3⟩ ∧ UsedBefore demoEnvR.w liveUS liveT ∧ GoodWindow liveUS ∧
    screenNew demoEnvR demoCfg liveUS = .ok scr s1 ∧ Looks demoEnv liveT liveUS s1 t1 ∧
    LiveRun demoEnv demoEnvR ⟨scr.data, s1, t1⟩ (liveEvs ++ [LiveEv.call liveLast .unit true]) y ∧
    (∀ op' r' k', LiveEv.call op' r' k' ∈ liveEvs ++ [LiveEv.call liveLast .unit true] →
      NarrowCall demoEnv op') ∧
    upToDate (decide (SizeKept liveUS s1)) liveEvs = true ∧
    upToDate (decide (SizeKept liveUS s1)) (liveEvs.take 2) = true ∧
    (liveEvs ++ [LiveEv.call liveLast .unit true]).flatMap LiveEv.asked =
      [.writeAt ⟨0, 1⟩ ['a', 'b'], .resize ⟨2, 2⟩, .writeAt ⟨1, 0⟩ ['c']] := by
  obtain ⟨scr, s1, hnew, hf⟩ := okOf_any (r := screenNew demoEnvR demoCfg liveUS)
    (f := fun x => decide (x.1.data.buf.size = ⟨2, 3⟩ ∧ SizeKept liveUS x.2 ∧
      (liveTrace demoEnv demoEnvR [.draw (.writeAt ⟨0, 1⟩ ['a', 'b']), .refresh, .readEvent none, liveLast]
        x.1.data x.2).map Prod.fst = some [(.unit, true), (.unit, true),
          (.event (some (.resize ⟨2, 2⟩)), false), (.unit, true)])) (by decide +kernel)
  obtain ⟨hsz, hk, ht⟩ := of_decide_eq_true hf
  obtain ⟨⟨rs, d, s⟩, ht, hrs⟩ := Option.map_eq_some_iff.mp ht
  cases hrs
  obtain ⟨t1, hl⟩ := looks_exists demoEnv liveT liveUS s1
  obtain ⟨t2, hr⟩ := live_of_trace t1 ht
  refine ⟨scr, s1, t1, _, hsz, ⟨⟨[], liveUS.w.os, ?_, rfl⟩, rfl, rfl⟩, ⟨?_, ?_, ?_⟩, hnew, hl, hr, ?_, ?_, ?_,
    rfl⟩
  · intro n hn
    have : ∀ r ∈ liveUS.w.os, r = .all ∨ r = .eintr := by decide
    rcases this _ hn with h | h <;> cases h
  · unfold ScreenSize GoodSize; decide
  · intro st hst z hz
    have : ∀ st ∈ liveUS.sched, st.resize = none ∨ st.resize = some ⟨2, 2⟩ := by decide
    rcases this st hst with h | h
    · rw [h] at hz; cases hz
    · rw [h] at hz; cases hz; unfold ScreenSize GoodSize; decide
  · decide
  · intro op' r' k' hm
    simp only [liveEvs, liveLast, List.cons_append, List.nil_append, List.mem_cons, LiveEv.call.injEq,
      List.not_mem_nil, or_false] at hm
    rcases hm with ⟨rfl, -⟩ | ⟨rfl, -⟩ | ⟨rfl, -⟩ | ⟨rfl, -⟩
    · exact ⟨nofun, by decide, by unfold ThinMarks; decide⟩
    · trivial
    · trivial
    · intro op hop
      simp only [List.mem_cons, GOp.draw.injEq, List.not_mem_nil, or_false, reduceCtorEq] at hop
      subst hop
      exact ⟨nofun, by decide, by unfold ThinMarks; decide⟩
  · rw [decide_eq_true hk]; rfl
  · rw [decide_eq_true hk]; rfl

/-- Calls with two-column characters. -/
def wideOps : List ScrOp :=
  [.draw (.writeAt ⟨0, 0⟩ ['世', 'x']), .refresh, .draw (.writeAt ⟨0, 0⟩ ['a', 'b']),
    .draw (.writeAt ⟨1, 0⟩ ['世']), .refresh, .readEvent none]

def wideEvs : List LiveEv :=
  callsOf wideOps [(.unit, true), (.unit, true), (.unit, true), (.unit, true), (.unit, true),
    (.event (some (.resize ⟨2, 2⟩)), false)]

def wideLast : ScrOp :=
  .guard [.draw (.writeAt ⟨0, 0⟩ ['世']), .refresh, .draw (.writeAt ⟨1, 0⟩ ['c', 'd']), .setCursorMode .invisible]

/-- Non-trivial case: two-column characters are drawn, shown, replaced by others, and kept when the window
becomes smaller. -/
example : ∃ scr s1 t1 y, UsedBefore demoEnvR.w liveUS liveT ∧ GoodWindow liveUS ∧
    screenNew demoEnvR demoCfg liveUS = .ok scr s1 ∧ Looks demoEnv liveT liveUS s1 t1 ∧
    LiveRun demoEnv demoEnvR ⟨scr.data, s1, t1⟩ (wideEvs ++ [LiveEv.call wideLast .unit true]) y ∧
    WideHist demoEnv demoEnvR scr.data s1 (wideEvs ++ [LiveEv.call wideLast .unit true]) ∧
    upToDate (decide (SizeKept liveUS s1)) wideEvs = true := by
  obtain ⟨scr, s1, hnew, hf⟩ := okOf_any (r := screenNew demoEnvR demoCfg liveUS)
    (f := fun x => decide (SizeKept liveUS x.2 ∧
      (liveTrace demoEnv demoEnvR (wideOps ++ [wideLast]) x.1.data x.2).map Prod.fst =
        some [(.unit, true), (.unit, true), (.unit, true), (.unit, true), (.unit, true),
          (.event (some (.resize ⟨2, 2⟩)), false), (.unit, true)] ∧
      WideHist demoEnv demoEnvR x.1.data x.2 (wideEvs ++ [LiveEv.call wideLast .unit true])))
    (by decide +kernel)
  obtain ⟨hk, ht, hh⟩ := of_decide_eq_true hf
  obtain ⟨⟨rs, d, s⟩, ht, hrs⟩ := Option.map_eq_some_iff.mp ht
  cases hrs
  obtain ⟨t1, hl⟩ := looks_exists demoEnv liveT liveUS s1
  obtain ⟨t2, hr⟩ := live_of_trace t1 ht
  refine ⟨scr, s1, t1, _, ⟨⟨[], liveUS.w.os, ?_, rfl⟩, rfl, rfl⟩, ⟨?_, ?_, ?_⟩, hnew, hl, hr, hh, ?_⟩
  · intro n hn
    have : ∀ r ∈ liveUS.w.os, r = .all ∨ r = .eintr := by decide
    rcases this _ hn with h | h <;> cases h
  · unfold ScreenSize GoodSize; decide
  · intro st hst z hz
    have : ∀ st ∈ liveUS.sched, st.resize = none ∨ st.resize = some ⟨2, 2⟩ := by decide
    rcases this st hst with h | h
    · rw [h] at hz; cases hz
    · rw [h] at hz; cases hz; unfold ScreenSize GoodSize; decide
  · decide
  · rw [decide_eq_true hk]; rfl

end Mortal
