import Verif.Props.Typed

/-!
# C83 with two-column characters

From the keyboard to an xterm that shows two-column characters.
-/

namespace Mortal
open Spec

/-- **C83** on an xterm, with two-column characters, under the conditions of `C59_live_wide`: the xterm
shows what the program draws for the events it has read. -/
theorem C83_xterm_wide {u : UEnv} (hT : TableOk u) {cfg : PrepareConfig} {crlf : Bool} {env : REnv}
    (hx : env.w = xtermDB) (hn : env.xterm = true) (hseq : sequences xtermKeys xtermName = some env.seqs)
    (hkey : cfg.enableKeypad = true) {s0 s1 : US} {scr : ScreenU} {v0 v1 : Vt}
    (hu : VUsed s0 v0) (hw : GoodWindow s0)
    (hlog : devModes s0.w.log = ⟨false, false, false⟩) (hoff : v0.Modes ⟨false, false, false⟩)
    (hnew : screenNew env cfg s0 = .ok scr s1) (hl : v0.Looks u crlf s0 s1 v1)
    {es : List LiveEv} {op : ScrOp} {r : URet} {kept : Bool} {y : VLive}
    (hrun : VRun u crlf env ⟨scr.data, s1, v1⟩ (es ++ [.call op r kept]) y)
    (hraw : ∀ n t r' k, LiveEv.call (.readRaw n t) r' k ∉ es ++ [.call op r kept])
    (hd : WideHist u env scr.data s1 (es ++ [LiveEv.call op r kept]))
    (hop : op = .refresh ∨ ∃ gs, op = .guard gs)
    (hup : upToDate (decide (SizeKept s0 s1)) es = true)
    {acts : List UserAct} (hp : ∀ a ∈ acts, a.Possible) (he : EscapeClear v1 (acts.filter (AskedFor cfg)))
    (hin : s1.inBuf ++ s1.input = v1.sent acts)
    (hcut : ∀ es1 es2 z, es ++ [.call op r kept] = es1 ++ es2 → VRun u crlf env ⟨scr.data, s1, v1⟩ es1 z →
      Unbroken v1 acts z.s.input)
    (paint : Paints)
    (hpaint : (es ++ [LiveEv.call op r kept]).flatMap LiveEv.asked =
      paint (eventsOf (callResults (es ++ [.call op r kept])))) :
    ∃ events read rest b, events = eventsOf (callResults (es ++ [.call op r kept])) ∧ acts = read ++ rest ∧
      fromUser events = (read.filter (AskedFor cfg)).map UserAct.event ∧
      y.s.inBuf ++ y.s.input = v1.sent rest ∧
      runOps u (paint events) (Buf.new scr.data.buf.size) = some b ∧
      Spec.Displays u y.v.t b ∧ (¬ RightHalf u b (target b) → y.v.t.cur = some (target b)) ∧ y.v.alt = true := by
  obtain ⟨l, r', e1, e2, e3⟩ := C72_events hT hx hn hseq hkey hu hw.2.2 hlog hoff hnew hl hrun hraw hp he hin hcut
  obtain ⟨b, c1, c2, c3, -, c4, -⟩ := C69_live_wide hT hx hu hw hnew hl hrun hd hop hup
  rw [hpaint] at c1
  exact ⟨_, l, r', b, rfl, e1, by rw [fromUser_eventsOf, e2], e3, c1, c2, fun h => (c3 h).1, c4⟩

/-- **C83** on a Windows console, with two-column characters, under the conditions of `C77_live_wide`. -/
theorem C83_console_wide {u : UEnv} (hT : TableOk u) {cfg : PrepareConfig} {t : WTerm} {z : Size} (hz : ConSize z)
    {c0 : Con} {s0 : WinSt} {old : WScreen} {oa oz : OutBuf} {D : List WEv} {x y : WSess}
    (hsane : c0.Sane t.inH) (hth : s0.theme = plainTheme) (hoa : c0.outs c0.active = some oa)
    (hword : oa.word = t.defAttrs) (hoz : c0.outs s0.outH = some oz) (hsz : oz.glyph.size = z)
    (hnew : winScreenNew t cfg s0 = .ok (old, x.s.toSData) x.s.w) (hl : x.s.w.log = s0.log ++ D)
    (hr : c0.Runs u t.inH D) (hp : c0.play u t.inH D = some x.c)
    (hwin : ∀ o, x.c.outs x.s.w.outH = some o → WholeWindow o)
    {es : List ConEv} {op : WScrOp} {r : Option Event} {current : Prop}
    (hist : WHistBy OwnDraw u t x True (es ++ [.call op r]) y current)
    (hs : LiveWideRun u t x True ((es ++ [ConEv.call op r]).flatMap ConEv.steps))
    (hop : op = .refresh ∨ ∃ gs, op = .guard gs)
    {wacts : List ConAct} {held' : BitVec 32} {D' : List WEv} (hl' : y.s.w.log = x.s.w.log ++ D')
    (ha : ∀ a ∈ wacts, a.Possible)
    (hq : Queued x.c.inMode s0.rd.prev wacts (x.c.queue ++ arriving D') held')
    (paint : Paints)
    (hpaint : (es ++ [ConEv.call op r]).flatMap ConEv.asked = paint ((es ++ [ConEv.call op r]).flatMap ConEv.tells)) :
    ∃ events read rest b, events = (es ++ [ConEv.call op r]).flatMap ConEv.tells ∧ wacts = read ++ rest ∧
      told events = (read.filter (ConAsked cfg)).map ConAct.event ∧
      Queued x.c.inMode y.s.w.rd.prev rest y.c.queue held' ∧
      (y.c.queue = [] → told events = (wacts.filter (ConAsked cfg)).map ConAct.event) ∧
      runOps u (paint events) (Buf.new z) = some b ∧
      (current → ∃ o, y.c.outs y.s.w.outH = some o ∧ y.c.active = y.s.w.outH ∧
        ConShows u t.defAttrs o b ∧ (¬ RightHalf u b (target b) → o.glyph.cur = some (target b))) := by
  obtain ⟨done, rest, g1, g2, g3, g4⟩ := console_told (fun _ h => h) hT hnew hl hr hp hist hl' ha hq
  have hx : WOpened u t cfg z x :=
    ⟨c0, s0, old, oa, oz, D, hsane, hth, hoa, hword, hoz, hsz, hnew, hl, hr, hp⟩
  have p1 := hist_path_by hT (N := False) hz hx hwin hist [] (Or.inl hs) (fun h => h.elim) ⟨rfl, rfl⟩
  obtain ⟨pre, hpre⟩ := steps_end hop r
  have hsteps : (es ++ [ConEv.call op r]).flatMap ConEv.steps = (es.flatMap ConEv.steps ++ pre) ++ [.refresh] := by
    rw [List.flatMap_append, List.flatMap_singleton, hpre, List.append_assoc]
  rw [List.nil_append, hsteps] at p1
  rw [hsteps] at hs
  obtain ⟨b, b1, b2⟩ := C77_live_wide hT hz hx hwin _ hs p1
  have e : (es.flatMap ConEv.steps ++ pre).filterMap LiveStep.asOp =
      paint ((es ++ [ConEv.call op r]).flatMap ConEv.tells) := by
    rw [← hpaint, ← asked_steps, hsteps]
    generalize es.flatMap ConEv.steps ++ pre = l
    rw [List.filterMap_append]
    exact (List.append_nil _).symm
  rw [e] at b1
  refine ⟨_, done, rest, b, rfl, g1, g2, g3, g4, b1, fun hc => ?_⟩
  obtain ⟨o, o1, o2, o3, o4, -⟩ := b2 hc
  exact ⟨o, o1, o2, o3, o4⟩

/-! ### Examples -/

/-- The user types a two-column character and `b`. -/
def wideActs : List UserAct := [.key (.char '世'), .key (.char 'b')]

def wideSent : Bytes := [0xe4, 0xb8, 0x96, 98]

def wideUS : US :=
  { smallUS 0 with
    sched := List.replicate 6 (okStep 0) ++ readSteps 5
    input := wideSent }

def wideTyped : List ScrOp :=
  [.readEvent none, .draw (.writeStr ['世']), .refresh, .readEvent none, .draw (.writeStr ['b']), .refresh]

def wideResults : List (URet × Bool) :=
  [(.event (some (.key (.char '世'))), true), (.unit, true), (.unit, true),
   (.event (some (.key (.char 'b'))), true), (.unit, true), (.unit, true)]

/-- Non-trivial case: a program that writes what is typed; a two-column character and `b` are typed. -/
example : ∃ scr s1 v1 y b,
    screenNew xtermU (winCfg .new false false) wideUS = .ok scr s1 ∧ liveVt.Looks demoEnv true wideUS s1 v1 ∧
    VRun demoEnv true xtermU ⟨scr.data, s1, v1⟩ (callsOf wideTyped wideResults) y ∧
    s1.inBuf ++ s1.input = v1.sent wideActs ∧
    runOps demoEnv [.writeStr ['世'], .writeStr ['b']] (Buf.new ⟨2, 3⟩) = some b ∧
    Spec.Displays demoEnv y.v.t b := by
  have hseq : sequences xtermKeys xtermName = some xtermU.seqs := by
    obtain ⟨m, h1, -⟩ := C26_terminal_table xtermKeys xtermName
    show _ = some ((sequences xtermKeys xtermName).getD .new)
    rw [h1]; rfl
  obtain ⟨scr, s1, hnew, hf⟩ := okOf_any (r := screenNew xtermU (winCfg .new false false) wideUS)
    (f := fun x => decide (SizeKept wideUS x.2 ∧ x.2.inBuf ++ x.2.input = wideSent ∧
      x.1.data.buf.size = ⟨2, 3⟩ ∧
      (liveTrace demoEnv xtermU wideTyped x.1.data x.2).map Prod.fst = some wideResults ∧
      (List.range 7).map (fun n => (liveTrace demoEnv xtermU (wideTyped.take n) x.1.data x.2).map
        fun y => y.2.2.input) = some wideSent :: List.replicate 6 (some []) ∧
      WideHist demoEnv xtermU x.1.data x.2 (callsOf wideTyped wideResults) ∧
      (liveVt.feed demoEnv true (newBytes wideUS x.2)).sent wideActs = wideSent)) (by decide +kernel)
  obtain ⟨hk, hi, hsz, ht, hc, hwide, hse⟩ := of_decide_eq_true hf
  obtain ⟨⟨rs, d, s⟩, ht, hrs⟩ := Option.map_eq_some_iff.mp ht
  cases hrs
  have hg0 : GoodWindow wideUS := by
    refine ⟨?_, ?_, ?_⟩
    · unfold ScreenSize GoodSize; decide
    · intro st hst z hz
      have : ∀ st ∈ wideUS.sched, st.resize = none := by decide
      rw [this st hst] at hz; cases hz
    · decide
  have hg := (passed_new hnew).window (fun h => ((flushedK_screenNew xtermU _).ok hnew h).1) hg0
  obtain ⟨v2, hr⟩ := vlive_of_trace (crlf := true) (liveVt.feed demoEnv true (newBytes wideUS s1)) hg ht
  have hu : VUsed wideUS liveVt := by
    refine ⟨⟨[], wideUS.w.os, ?_, rfl⟩, rfl, liveVt_ready, rfl, rfl, rfl⟩
    intro n hn
    have : ∀ r ∈ wideUS.w.os, r = .all ∨ r = .eintr := by decide
    rcases this _ hn with h | h <;> cases h
  have hpos : ∀ a ∈ wideActs, a.Possible := by
    intro a ha
    simp only [wideActs, List.mem_cons, List.not_mem_nil, or_false] at ha
    rcases ha with rfl | rfl <;> (show ¬ Control _; decide)
  have hap : EscapeApart (wideActs.filter (AskedFor (winCfg .new false false))) := by
    intro l c r e
    have h1 : UserAct.key .escape ∈ wideActs.filter (AskedFor (winCfg .new false false)) := by
      rw [e]; simp
    have h2 := (List.mem_filter.mp h1).1
    simp [wideActs] at h2
  have hlo : liveVt.Looks demoEnv true wideUS s1 (liveVt.feed demoEnv true (newBytes wideUS s1)) :=
    ⟨fun _ => rfl, fun h => (h hk).elim⟩
  have hcut : ∀ es1 es2 z, callsOf wideTyped wideResults = es1 ++ es2 →
      VRun demoEnv true xtermU ⟨scr.data, s1, liveVt.feed demoEnv true (newBytes wideUS s1)⟩ es1 z →
      Unbroken (liveVt.feed demoEnv true (newBytes wideUS s1)) wideActs z.s.input := by
    intro es1 es2 z he h1
    have hw : ∀ y, LiveEv.window y ∉ es1 := by
      intro y hy
      have h2 : LiveEv.window y ∈ callsOf wideTyped wideResults := by
        rw [he]; exact List.mem_append_left _ hy
      exact absurd h2 (by
        unfold callsOf wideTyped wideResults
        simp)
    have h3 := trace_of_vrun h1 hw
    obtain ⟨n, hn, ho⟩ : ∃ n, n < 7 ∧ opsIn es1 = wideTyped.take n := by
      have e1 : opsIn (callsOf wideTyped wideResults) = wideTyped := rfl
      have e2 : ∀ (a b : List LiveEv), opsIn (a ++ b) = opsIn a ++ opsIn b := by
        intro a b
        induction a with
        | nil => rfl
        | cons x a ih => cases x <;> simp [opsIn, ih]
      rw [he, e2] at e1
      refine ⟨(opsIn es1).length, ?_, by rw [← e1, List.take_left']; rfl⟩
      have := congrArg List.length e1
      rw [List.length_append] at this
      have : wideTyped.length = 6 := rfl
      omega
    rw [ho] at h3
    obtain ⟨⟨rs', d', s'⟩, h4, h5⟩ := Option.map_eq_some_iff.mp h3
    have h6 := congrArg (fun l => l[n]?) hc
    simp only [List.getElem?_map, List.getElem?_range hn, Option.map_some] at h6
    rw [h4] at h6
    have hs' : s' = z.s := by cases h5; rfl
    subst hs'
    match n, hn, h6 with
    | 0, _, h6 =>
      exact ⟨[], wideActs, rfl, Or.inl ((Option.some.inj (Option.some.inj h6)).trans hse.symm)⟩
    | n + 1, hn, h6 =>
      rw [List.getElem?_cons_succ, List.getElem?_replicate, if_pos (by omega)] at h6
      exact ⟨wideActs, [], (List.append_nil _).symm, Or.inl (Option.some.inj (Option.some.inj h6))⟩
  have hm := C72_modes demo_table (env := xtermU) rfl rfl hu hg0.2.2 rfl ⟨rfl, rfl, rfl, rfl, rfl⟩ hnew hlo (.done _)
  obtain ⟨evs, l, r, b, rfl, -, -, -, e3, e4, -⟩ := C83_xterm_wide demo_table (cfg := winCfg .new false false)
    (env := xtermU) rfl rfl hseq rfl
    hu hg0 rfl ⟨rfl, rfl, rfl, rfl, rfl⟩ hnew hlo (es := callsOf (wideTyped.take 5) (wideResults.take 5))
    (op := .refresh) (r := .unit) (kept := true) hr (by
      intro n t r' k h
      have h' : LiveEv.call (.readRaw n t) r' k ∈ callsOf wideTyped wideResults := h
      simp [callsOf, wideTyped, wideResults] at h')
    hwide (Or.inl rfl) (by rw [decide_eq_true hk]; rfl) hpos
    (C72_escape_apart rfl hm hpos hap) (hi.trans hse.symm) hcut echo rfl
  rw [hsz] at e3
  exact ⟨scr, s1, _, _, b, hnew, hlo, hr, hi.trans hse.symm, e3, e4⟩

/-! On a console, which changes its size after the key. -/

def wideRecs : List InRec := [.key ⟨true, 0, 0x4E16, 0⟩, .size ⟨4, 1⟩]

def wideConActs : List ConAct := [.user (.key (.char '世')), .resize ⟨1, 4⟩]

def wideSteps : List ConStep :=
  [⟨(wideRecs.take 1).map .input, .ok⟩, ⟨[], .ok⟩, ⟨[], .ok⟩, ⟨[], .recs (wideRecs.take 1)⟩,
   ⟨(wideRecs.drop 1).map .input, .ok⟩, ⟨[], .ok⟩, ⟨[], .ok⟩, ⟨[], .recs (wideRecs.drop 1)⟩,
   ⟨[], .info ⟨⟨4, 1⟩, ⟨0, 0⟩, 7, ⟨0, 0, 3, 0⟩⟩⟩, ⟨[], .ok⟩, ⟨[], .ok⟩, ⟨[], .ok⟩, ⟨[], .wrote 1⟩, ⟨[], .ok⟩,
   ⟨[], .wrote 1⟩, ⟨[], .wrote 1⟩, ⟨[], .ok⟩]

def wideConEvs : List ConEv :=
  [.call (.readEvent none) (some (.key (.char '世'))), .call (.draw (.writeStr ['世'])) none,
   .window lowOut, .call (.readEvent none) (some (.resize ⟨1, 4⟩))]

def wideEnd : WSess :=
  ((histW demoEnv demoTerm (wideConEvs ++ [.call .refresh none]) (showOpen wideSteps) true).getD (showOpen [], false)).1

theorem wide_hist :
    WHistBy OwnDraw demoEnv demoTerm (showOpen wideSteps) True (wideConEvs ++ [.call .refresh none]) wideEnd True := by
  have h : (histW demoEnv demoTerm (wideConEvs ++ [.call .refresh none]) (showOpen wideSteps) true).map Prod.snd =
    some true := by decide +kernel
  obtain ⟨⟨y, g⟩, h1, h2⟩ := Option.map_eq_some_iff.mp h
  have := histW_sound (K := OwnDraw) _ _ _ y g (by
    intro op r hop s
    simp only [wideConEvs, List.cons_append, List.nil_append, List.mem_cons, List.not_mem_nil, or_false,
      ConEv.call.injEq, reduceCtorEq, false_or] at hop
    rcases hop with h | h | h | h <;> obtain ⟨rfl, -⟩ := h
    case' inr.inl => exact nofun
    all_goals trivial) h1
  cases h2
  rw [true_eq] at this
  unfold wideEnd
  rw [h1]
  exact this

/-- What is drawn, in the memory of the screen. -/
theorem wide_drawn {b : Buf} (h : (BufOp.writeStr ['世']).run demoEnv (Buf.new ⟨2, 3⟩) = some b) :
    SafeOp demoEnv b (.resize ⟨1, 4⟩) := by
  have h2 : b = ((BufOp.writeStr ['世']).run demoEnv (Buf.new ⟨2, 3⟩)).getD (Buf.new ⟨2, 3⟩) := by
    rw [h]; rfl
  subst h2
  refine ⟨by unfold GoodSize; decide, ?_⟩
  rintro ⟨l, c⟩ cell hin hcol hcell
  have hcol : c + 1 = 4 := hcol
  have hin : c < 3 := hin.2
  omega

/-- The steps are safe. -/
theorem wide_safe : LiveWideRun demoEnv demoTerm (showOpen wideSteps) True
    ((wideConEvs ++ [ConEv.call .refresh none]).flatMap ConEv.steps) := by
  show LiveWideRun demoEnv demoTerm (showOpen wideSteps) True
    [.other, .draw (.writeStr ['世']), .changed lowOut, .reported ⟨1, 4⟩, .other, .refresh]
  refine ⟨trivial, fun x0 e0 => ?_⟩
  have hb0 : x0.s.buf = Buf.new ⟨2, 3⟩ := by
    have := congrArg SData.buf e0.1
    exact this
  refine ⟨⟨nofun, ?_, by unfold ThinMarks; decide⟩, fun x1 e1 => ⟨⟨by decide, by decide⟩, fun x2 e2 =>
    ⟨⟨by decide, ?_⟩, fun x3 e3 => ⟨trivial, fun x4 e4 => ⟨fun _ hc => ?_, fun _ _ => trivial⟩⟩⟩⟩⟩
  · rw [hb0]
    exact ⟨by decide, by decide, fun _ _ => trivial⟩
  · obtain ⟨b, h1, rfl⟩ := e1
    rw [hb0] at h1
    rw [e2.1]
    exact wide_drawn h1
  · obtain ⟨u1, -⟩ := wsUpdateSize_ok e3.1
    have e4 : x4.s.toSData = x3.s.toSData := e4.1
    unfold SData.updateSize at u1
    cases hb : x2.s.buf.resize ⟨1, 4⟩ with
    | none => rw [hb] at u1; cases u1
    | some b =>
      rw [hb] at u1
      have u1 : _ = x3.s.toSData := Option.some.inj u1
      rw [e4, ← u1] at hc
      cases hc

/-- Non-trivial case for `C83_console_wide`: a two-column character is typed, and the console becomes one
line of garbage; in the end it shows the character and blanks. -/
example : ∃ events b o, events = (wideConEvs ++ [ConEv.call .refresh none]).flatMap ConEv.tells ∧
    told events = wideConActs.map ConAct.event ∧ runOps demoEnv (echoSized events) (Buf.new ⟨2, 3⟩) = some b ∧
    wideEnd.c.outs wideEnd.s.w.outH = some o ∧ ConShows demoEnv demoTerm.defAttrs o b ∧
    o.glyph.size = ⟨1, 4⟩ ∧ o.glyph.cell ⟨0, 0⟩ = .left ['世'] () ∧ o.glyph.cell ⟨0, 1⟩ = .right ∧
    o.glyph.cell ⟨0, 2⟩ = .narrow [' '] () := by
  have p2 : ((wideEnd.c.outs wideEnd.s.w.outH).map fun o => (o.glyph.size, o.glyph.cell ⟨0, 0⟩,
      o.glyph.cell ⟨0, 1⟩, o.glyph.cell ⟨0, 2⟩)) =
    some (⟨1, 4⟩, .left ['世'] (), .right, .narrow [' '] ()) := by decide +kernel
  obtain ⟨evs, l, r, b, e1, -, -, -, e2, e3, e4⟩ := C83_console_wide (u := demoEnv) demo_table
    (cfg := winCfg .new false false) (t := demoTerm) (z := ⟨2, 3⟩) (by decide) (c0 := demoCon)
    (s0 := demoSt (sessEnterOs ++ ⟨[], .ok⟩ :: wideSteps)) (old := ⟨⟨0x1F7, false⟩, 2⟩) (oa := demoOut) (oz := demoOut)
    (x := showOpen wideSteps) demoCon_sane rfl rfl rfl rfl rfl rfl rfl showOpen_runs.1 showOpen_runs.2
    (showOpen_whole wideSteps) wide_hist wide_safe (Or.inl rfl)
    (D' := wideEnd.s.w.log.drop (showOpen wideSteps).s.w.log.length) (by decide +kernel)
    (wacts := wideConActs) (held' := 0)
    (by
      intro a ha
      simp only [wideConActs, List.mem_cons, List.not_mem_nil, or_false] at ha
      rcases ha with rfl | rfl <;> exact ⟨by decide, by decide⟩)
    (by
      rw [show (showOpen wideSteps).c.queue ++ arriving (wideEnd.s.w.log.drop (showOpen wideSteps).s.w.log.length) =
        wideRecs by decide +kernel]
      refine .key _ _ (by decide) (by decide) ⟨rfl, not_named (by decide), by decide, fun i hi => by simp⟩ ?_
      exact .size _ (by decide) (.nil _))
    echoSized rfl
  obtain ⟨o, o1, -, o2, -⟩ := e4 trivial
  rw [o1, Option.map_some, Option.some.injEq] at p2
  simp only [Prod.mk.injEq] at p2
  refine ⟨evs, b, o, e1, ?_, e3, o1, o2, p2.1, p2.2.1, p2.2.2.1, p2.2.2.2⟩
  exact e2 (by decide +kernel)

end Mortal
