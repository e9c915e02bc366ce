import Verif.Lemmas.Typed
import Verif.Props.VtLive
import Verif.Props.Portable
import Verif.Props.PortableInput

/-!
# What the user does is what the user sees (C83)

From the keys and the mouse to the picture: a program that draws as it is told by the events it reads, on
an xterm from the bytes of the input to the bytes of the output, on a Windows console from its records to
its buffer, and on both for the same user.
-/

namespace Mortal
open Spec

theorem hist_calls {K : BufOp → Prop} {u : UEnv} {t : WTerm} {x y : WSess} {f g : Prop} {es : List ConEv}
    (h : WHistBy K u t x f es y g) : ∃ D, wsCallsMade u t (es.filterMap ConEv.op) x.s = some (es.flatMap ConEv.tells, y.s) ∧
      y.s.w.log = x.s.w.log ++ D ∧ takenRecs D ++ y.c.queue = x.c.queue ++ arriving D := by
  induction h with
  | done x f => exact ⟨[], rfl, (List.append_nil _).symm, by simp [takenRecs, arriving]⟩
  | @call x y f g op r s c D es hf hrun hl hr _ ih =>
    obtain ⟨D', h1, h2, h3⟩ := ih
    refine ⟨D ++ D', ?_, by rw [h2, hl, List.append_assoc], ?_⟩
    · show wsCallsMade u t (op :: es.filterMap ConEv.op) x.s = some (r.toList ++ es.flatMap ConEv.tells, y.s)
      rw [wsCallsMade, hrun]
      dsimp only
      rw [h1]
      rfl
    · rw [takenRecs_append, List.append_assoc, h3, ← List.append_assoc, lives_account D _ _ hr, arriving_append,
        List.append_assoc]
  | window _ _ _ _ _ _ ih => exact ih

theorem hist_public {K : BufOp → Prop} (hK : ∀ op, K op → OwnDraw op) {u : UEnv} {t : WTerm} {x y : WSess}
    {f g : Prop} {es : List ConEv} (h : WHistBy K u t x f es y g) : ∀ op ∈ es.filterMap ConEv.op, op.Public := by
  induction h with
  | done x f => intro op h; cases h
  | @call x y f g op r s c D es hf _ _ _ _ ih =>
    intro o ho
    rcases List.mem_cons.mp (show o ∈ op :: es.filterMap ConEv.op from ho) with rfl | ho
    · cases o with
      | draw op => exact hK _ hf
      | guard gs =>
        obtain ⟨ops, b, s', rfl, k1, -⟩ := hf
        intro z hz
        obtain ⟨op, h1, h2⟩ := List.mem_map.mp hz
        cases h2
        exact hK _ (k1 _ h1) z rfl
      | _ => trivial
    · exact ih o ho
  | window _ _ _ _ _ _ ih => exact ih

/-- Without changes the screen goes on knowing the size. -/
theorem hist_current {u : UEnv} {t : WTerm} {x y : WSess} {f g : Prop} {es : List ConEv}
    (h : WHist u t x f es y g) : (∀ o, ConEv.window o ∉ es) → (∀ z, Event.resize z ∉ es.flatMap ConEv.tells) →
    f → g := by
  induction h with
  | done x f => exact fun _ _ h => h
  | @call x y f g op r s c D es hf _ _ _ _ ih =>
    intro h1 h2 h3
    refine ih (fun o ho => h1 o (List.mem_cons_of_mem _ ho)) (fun z hz => h2 z (List.mem_append_right _ hz)) ?_
    unfold ConEv.current
    split
    · rename_i z e
      cases e
      exact (h2 z List.mem_cons_self).elim
    · exact h3
    · rename_i e; cases e
  | window _ _ _ _ _ _ ih => exact fun h1 _ _ => (h1 _ List.mem_cons_self).elim

theorem fromUser_eventsOf (l : List URet) : fromUser (eventsOf l) = inputEvents l := by
  induction l with
  | nil => rfl
  | cons r l ih =>
    cases r with
    | event e =>
      cases e with
      | none => exact ih
      | some e => cases e <;> simp [eventsOf, inputEvents, fromUser] <;> exact ih
    | _ => exact ih

/-- **C83** on an xterm. A program opens a screen with the keypad on and then makes any calls, except
`read_raw`; the user types and uses the mouse meanwhile, signals arrive and the window changes. What the
program draws is determined by the events it has read. When a refresh or a guard ends and the last change of
size has been told, the xterm, from the bytes it was sent, shows what the program draws for these events:
the acts of the user that have been read, in their order, with the signals and sizes in between. What is
still unread is what the xterm has sent for the rest of the acts. -/
theorem C83_xterm {u : UEnv} (hT : TableOk u) {cfg : PrepareConfig} {crlf : Bool} {env : REnv}
    (hx : env.w = xtermDB) (hn : env.xterm = true) (hseq : sequences xtermKeys xtermName = some env.seqs)
    (hkey : cfg.enableKeypad = true) {s0 s1 : US} {scr : ScreenU} {v0 v1 : Vt}
    (hu : VUsed s0 v0) (hw : GoodWindow s0)
    (hlog : devModes s0.w.log = ⟨false, false, false⟩) (hoff : v0.Modes ⟨false, false, false⟩)
    (hnew : screenNew env cfg s0 = .ok scr s1) (hl : v0.Looks u crlf s0 s1 v1)
    {es : List LiveEv} {op : ScrOp} {r : URet} {kept : Bool} {y : VLive}
    (hrun : VRun u crlf env ⟨scr.data, s1, v1⟩ (es ++ [.call op r kept]) y)
    (hraw : ∀ n t r' k, LiveEv.call (.readRaw n t) r' k ∉ es ++ [.call op r kept])
    (hd : ∀ op' r' k', LiveEv.call op' r' k' ∈ es ++ [LiveEv.call op r kept] → NarrowCall u op')
    (hop : op = .refresh ∨ ∃ gs, op = .guard gs)
    (hup : upToDate (decide (SizeKept s0 s1)) es = true)
    {acts : List UserAct} (hp : ∀ a ∈ acts, a.Possible) (he : EscapeClear v1 (acts.filter (AskedFor cfg)))
    (hin : s1.inBuf ++ s1.input = v1.sent acts)
    (hcut : ∀ es1 es2 z, es ++ [.call op r kept] = es1 ++ es2 → VRun u crlf env ⟨scr.data, s1, v1⟩ es1 z →
      Unbroken v1 acts z.s.input)
    (paint : Paints)
    (hpaint : (es ++ [LiveEv.call op r kept]).flatMap LiveEv.asked =
      paint (eventsOf (callResults (es ++ [.call op r kept])))) :
    ∃ events read rest b, events = eventsOf (callResults (es ++ [.call op r kept])) ∧ acts = read ++ rest ∧
      fromUser events = (read.filter (AskedFor cfg)).map UserAct.event ∧
      y.s.inBuf ++ y.s.input = v1.sent rest ∧
      runOps u (paint events) (Buf.new scr.data.buf.size) = some b ∧
      Spec.Displays u y.v.t b ∧ y.v.t.cur = some (target b) ∧ y.v.alt = true := by
  obtain ⟨l, r', e1, e2, e3⟩ := C72_events hT hx hn hseq hkey hu hw.2.2 hlog hoff hnew hl hrun hraw hp he hin hcut
  obtain ⟨b, c1, c2, c3, -, -, c4, -⟩ := C69_live_screen hT hx hu hw hnew hl hrun hd hop hup
  rw [hpaint] at c1
  exact ⟨_, l, r', b, rfl, e1, by rw [fromUser_eventsOf, e2], e3, c1, c2, c3, c4⟩

theorem asked_steps (es : List ConEv) : (es.flatMap ConEv.steps).filterMap LiveStep.asOp = es.flatMap ConEv.asked := by
  induction es with
  | nil => rfl
  | cons e es ih => rw [List.flatMap_cons, List.flatMap_cons, List.filterMap_append, ih, steps_asked]

/-- What a program is told in a history on a console. -/
theorem console_told {K : BufOp → Prop} (hK : ∀ op, K op → OwnDraw op) {u : UEnv} (hT : TableOk u)
    {cfg : PrepareConfig} {t : WTerm}
    {c0 : Con} {s0 : WinSt} {old : WScreen} {D : List WEv} {x y : WSess}
    (hnew : winScreenNew t cfg s0 = .ok (old, x.s.toSData) x.s.w) (hl : x.s.w.log = s0.log ++ D)
    (hr : c0.Runs u t.inH D) (hp : c0.play u t.inH D = some x.c)
    {es : List ConEv} {f current : Prop} (hist : WHistBy K u t x f es y current)
    {wacts : List ConAct} {held' : BitVec 32} {D' : List WEv} (hl' : y.s.w.log = x.s.w.log ++ D')
    (ha : ∀ a ∈ wacts, a.Possible)
    (hq : Queued x.c.inMode s0.rd.prev wacts (x.c.queue ++ arriving D') held') :
    ∃ done rest, wacts = done ++ rest ∧
      told (es.flatMap ConEv.tells) = (done.filter (ConAsked cfg)).map ConAct.event ∧
      Queued x.c.inMode y.s.w.rd.prev rest y.c.queue held' ∧
      (y.c.queue = [] → told (es.flatMap ConEv.tells) = (wacts.filter (ConAsked cfg)).map ConAct.event) := by
  obtain ⟨D1, k1, k2, k3⟩ := hist_calls hist
  obtain rfl : D1 = D' := List.append_cancel_left (k2.symm.trans hl')
  obtain ⟨s1, p, ⟨⟨D0, j1, -⟩, j2⟩, j3⟩ := screenNew_prepares hnew
  obtain ⟨⟨D2, j4, -⟩, -⟩ := (prepare_took t cfg s1).1 p _ j3
  obtain rfl : D = D0 ++ D2 := by
    rw [j4, j1, List.append_assoc] at hl
    exact (List.append_cancel_left hl).symm
  obtain ⟨c1, i1, i2, i3, i4⟩ := con_runs_left hr hp
  obtain ⟨h1, h2, -⟩ := prepared_as j3 j4 i3 i4
  rw [← j2, ← h2, ← k3] at hq
  obtain ⟨done, rest, rfl, e2, e3, e4, -⟩ := screen_told hT.space _ (hist_public hK hist) h1 k1 hl' ha hq
  refine ⟨done, rest, rfl, e2, e4, fun he => ?_⟩
  rw [he] at e4
  rw [e2, List.filter_append, queued_nil e3 e4, List.append_nil]

/-- **C83** on a Windows console, the visible buffer of which may change at any time. If the last change
has been told in the end (`current`), the console shows what the program draws for the events it has read:
what the user did and the changes of size, in their order, and signals. What is still unread is in the
queue. -/
theorem C83_console {u : UEnv} (hT : TableOk u) {cfg : PrepareConfig} {t : WTerm} {z : Size} (hz : ConSize z)
    {c0 : Con} {s0 : WinSt} {old : WScreen} {oa oz : OutBuf} {D : List WEv} {x y : WSess}
    (hsane : c0.Sane t.inH) (hth : s0.theme = plainTheme) (hoa : c0.outs c0.active = some oa)
    (hword : oa.word = t.defAttrs) (hoz : c0.outs s0.outH = some oz) (hsz : oz.glyph.size = z)
    (hnew : winScreenNew t cfg s0 = .ok (old, x.s.toSData) x.s.w) (hl : x.s.w.log = s0.log ++ D)
    (hr : c0.Runs u t.inH D) (hp : c0.play u t.inH D = some x.c)
    (hwin : ∀ o, x.c.outs x.s.w.outH = some o → WholeWindow o)
    {es : List ConEv} {op : WScrOp} {r : Option Event} {current : Prop}
    (hist : WHist u t x True (es ++ [.call op r]) y current)
    (hop : op = .refresh ∨ ∃ gs, op = .guard gs)
    {wacts : List ConAct} {held' : BitVec 32} {D' : List WEv} (hl' : y.s.w.log = x.s.w.log ++ D')
    (ha : ∀ a ∈ wacts, a.Possible) (hsizes : ∀ w, ConAct.resize w ∈ wacts → ConSize w)
    (hq : Queued x.c.inMode s0.rd.prev wacts (x.c.queue ++ arriving D') held')
    (paint : Paints)
    (hpaint : (es ++ [ConEv.call op r]).flatMap ConEv.asked = paint ((es ++ [ConEv.call op r]).flatMap ConEv.tells)) :
    ∃ events read rest b, events = (es ++ [ConEv.call op r]).flatMap ConEv.tells ∧ wacts = read ++ rest ∧
      told events = (read.filter (ConAsked cfg)).map ConAct.event ∧
      Queued x.c.inMode y.s.w.rd.prev rest y.c.queue held' ∧
      (y.c.queue = [] → told events = (wacts.filter (ConAsked cfg)).map ConAct.event) ∧
      runOps u (paint events) (Buf.new z) = some b ∧ GridOk b ∧
      (current → ∃ o, y.c.outs y.s.w.outH = some o ∧ y.c.active = y.s.w.outH ∧
        ConShows u t.defAttrs o b ∧ o.glyph.cur = some (target b)) := by
  obtain ⟨done, rest, g1, g2, g3, g4⟩ := console_told (fun _ h => h.1) hT hnew hl hr hp hist hl' ha hq
  have hx : WOpened u t cfg z x :=
    ⟨c0, s0, old, oa, oz, D, hsane, hth, hoa, hword, hoz, hsz, hnew, hl, hr, hp⟩
  have hno : ∀ w, Event.resize w ∈ (es ++ [ConEv.call op r]).flatMap ConEv.tells → ConSize w := by
    intro w hw
    have : Event.resize w ∈ told ((es ++ [ConEv.call op r]).flatMap ConEv.tells) := List.mem_filter.mpr ⟨hw, rfl⟩
    rw [g2] at this
    obtain ⟨a, a1, a2⟩ := List.mem_map.mp this
    have a3 := (List.mem_filter.mp a1).1
    cases a with
    | resize w' => cases a2; exact hsizes w (by rw [g1]; exact List.mem_append_left _ a3)
    | user a => cases a <;> cases a2
  have hs := hist_narrow hist hno
  have p1 := hist_path_by hT (N := True) hz hx hwin hist [] (Or.inr trivial) (fun _ => hs) ⟨rfl, rfl⟩
  obtain ⟨pre, hpre⟩ := steps_end hop r
  have hsteps : (es ++ [ConEv.call op r]).flatMap ConEv.steps = (es.flatMap ConEv.steps ++ pre) ++ [.refresh] := by
    rw [List.flatMap_append, List.flatMap_singleton, hpre, List.append_assoc]
  rw [List.nil_append, hsteps] at p1
  rw [hsteps] at hs
  have hs := fun a ha => hs a (List.mem_append_left _ ha)
  obtain ⟨b, b1, b2⟩ := C77_live hT hz hx hwin _ hs p1
  have e : (es.flatMap ConEv.steps ++ pre).filterMap LiveStep.asOp =
      paint ((es ++ [ConEv.call op r]).flatMap ConEv.tells) := by
    rw [← hpaint, ← asked_steps, hsteps]
    generalize es.flatMap ConEv.steps ++ pre = l
    rw [List.filterMap_append]
    exact (List.append_nil _).symm
  have hgrid := C10_sound u hT _ hz.1 _ (live_narrow_sizes hs) b b1
  rw [e] at b1
  refine ⟨_, done, rest, b, rfl, g1, g2, g3, g4, b1, hgrid, fun hc => ?_⟩
  obtain ⟨o, o1, o2, o3, o4, -⟩ := b2 hc
  exact ⟨o, o1, o2, o3, o4⟩

/-- **C83.** The same program, which does not draw signals, the same user and windows that keep the same
size: when everything the user did
has been read and drawn on both systems, the console shows the same picture as the xterm, and has the
cursor in the same place. -/
theorem C83_same {u : UEnv} (hT : TableOk u) {cfg : PrepareConfig}
    -- on Unix
    {crlf : Bool} {env : REnv}
    (hx : env.w = xtermDB) (hn : env.xterm = true) (hseq : sequences xtermKeys xtermName = some env.seqs)
    (hkey : cfg.enableKeypad = true) {s0 s1 : US} {scr : ScreenU} {v0 v1 : Vt}
    (hu : VUsed s0 v0) (hw : GoodWindow s0)
    (hlog : devModes s0.w.log = ⟨false, false, false⟩) (hoff : v0.Modes ⟨false, false, false⟩)
    (hnew : screenNew env cfg s0 = .ok scr s1) (hl : v0.Looks u crlf s0 s1 v1)
    {es : List LiveEv} {op : ScrOp} {r : URet} {kept : Bool} {y : VLive}
    (hrun : VRun u crlf env ⟨scr.data, s1, v1⟩ (es ++ [.call op r kept]) y)
    (hraw : ∀ n t r' k, LiveEv.call (.readRaw n t) r' k ∉ es ++ [.call op r kept])
    (hd : ∀ op' r' k', LiveEv.call op' r' k' ∈ es ++ [LiveEv.call op r kept] → NarrowCall u op')
    (hop : op = .refresh ∨ ∃ gs, op = .guard gs)
    (hup : upToDate (decide (SizeKept s0 s1)) es = true)
    {acts : List UserAct} (hp : ∀ a ∈ acts, a.Possible) (he : EscapeClear v1 (acts.filter (AskedFor cfg)))
    (hin : s1.inBuf ++ s1.input = v1.sent acts)
    (hcut : ∀ es1 es2 z, es ++ [.call op r kept] = es1 ++ es2 → VRun u crlf env ⟨scr.data, s1, v1⟩ es1 z →
      Unbroken v1 acts z.s.input)
    (hread : y.s.inBuf ++ y.s.input = [])
    -- on Windows
    {t : WTerm} (hz : ConSize scr.data.buf.size)
    {c0 : Con} {ws0 : WinSt} {old : WScreen} {oa oz : OutBuf} {D : List WEv} {wx wy : WSess}
    (hsane : c0.Sane t.inH) (hth : ws0.theme = plainTheme) (hoa : c0.outs c0.active = some oa)
    (hword : oa.word = t.defAttrs) (hoz : c0.outs ws0.outH = some oz) (hsz : oz.glyph.size = scr.data.buf.size)
    (hwnew : winScreenNew t cfg ws0 = .ok (old, wx.s.toSData) wx.s.w) (hwl : wx.s.w.log = ws0.log ++ D)
    (hwr : c0.Runs u t.inH D) (hwp : c0.play u t.inH D = some wx.c)
    (hwin : ∀ o, wx.c.outs wx.s.w.outH = some o → WholeWindow o)
    {ces : List ConEv} {wop : WScrOp} {wr : Option Event} {current : Prop}
    (hist : WHist u t wx True (ces ++ [.call wop wr]) wy current) (hkept : ∀ o, ConEv.window o ∉ ces)
    (hwop : wop = .refresh ∨ ∃ gs, wop = .guard gs)
    {wacts : List ConAct} {held' : BitVec 32} {D' : List WEv} (hwl' : wy.s.w.log = wx.s.w.log ++ D')
    (hwa : ∀ a ∈ wacts, a.Possible) (hfix : ∀ w, ConAct.resize w ∉ wacts)
    (hwq : Queued wx.c.inMode ws0.rd.prev wacts (wx.c.queue ++ arriving D') held') (hwread : wy.c.queue = [])
    -- the same user and the same program
    (same : wacts.filterMap ConAct.byUser = acts)
    (hc : cfg.blockSignals = true ∨ UserAct.key (.ctrl 'c') ∉ acts) (paint : Paints) (hof : OfUser paint)
    (hpaint : (es ++ [LiveEv.call op r kept]).flatMap LiveEv.asked =
      paint (eventsOf (callResults (es ++ [.call op r kept]))))
    (hwpaint : (ces ++ [ConEv.call wop wr]).flatMap ConEv.asked = paint ((ces ++ [ConEv.call wop wr]).flatMap ConEv.tells)) :
    ∃ o, wy.c.outs wy.s.w.outH = some o ∧ wy.c.active = wy.s.w.outH ∧
      SamePicture t.defAttrs y.v.t o ∧ o.glyph.cur = y.v.t.cur ∧ y.v.t.cur.isSome := by
  obtain ⟨evs, l, rest, b, -, e1, e0, e2, e3, e4, e5, -⟩ := C83_xterm hT hx hn hseq hkey hu hw hlog hoff hnew hl hrun
    hraw hd hop hup hp he hin hcut paint hpaint
  obtain ⟨wevs, done, wrest, b', g0, g1, g2, -, g3, g4, g5, g6⟩ := C83_console hT hz hsane hth hoa hword hoz
    hsz hwnew hwl hwr hwp hwin hist hwop hwl' hwa (fun w h => (hfix w h).elim) hwq paint hwpaint
  have hnone : ∀ w, Event.resize w ∉ wevs := by
    intro w hw
    have : Event.resize w ∈ told wevs := List.mem_filter.mpr ⟨hw, rfl⟩
    rw [g2] at this
    obtain ⟨a, a1, a2⟩ := List.mem_map.mp this
    have a3 := (List.mem_filter.mp a1).1
    cases a with
    | resize w' => exact hfix w' (by rw [g1]; exact List.mem_append_left _ a3)
    | user a => cases a <;> cases a2
  obtain ⟨o, g10, g7, g8, g9⟩ := g6 (hist_current hist (fun o ho => by
    rcases List.mem_append.mp ho with ho | ho
    · exact hkept o ho
    · cases List.mem_singleton.mp ho) (by rw [← g0]; exact hnone) trivial)
  have hm := C72_modes hT hx hn hu hw.2.2 hlog hoff hnew hl (.done _)
  have h1 : acts.filter (AskedFor cfg) = l.filter (AskedFor cfg) :=
    all_told hkey hm hp e1 (by rw [← e2]; exact hread)
  have h2 : fromUser wevs = fromUser evs := by
    have hu' : fromUser wevs = fromUser (told wevs) := by
      unfold fromUser told
      generalize wevs = l
      induction l with
      | nil => rfl
      | cons e l ih => cases e <;> simp [ih]
    rw [hu', g3 hwread, user_events (by rw [same]; exact hc), same, e0, h1]
  have h3 : paint wevs = paint evs := by rw [hof wevs, h2, ← hof evs]
  rw [h3, e3] at g4
  cases g4
  exact ⟨o, g10, g7, samePicture_shown g5 e4 g8, g9.trans e5.symm, by rw [e5]; rfl⟩

/-! ### Examples -/

instance (z : Size) : Decidable (ConSize z) := by unfold ConSize GoodSize; infer_instance

instance (o : OutBuf) : Decidable (WholeWindow o) := by unfold WholeWindow; infer_instance

/-- Something happens at the console. -/
def conStep (u : UEnv) (t : WTerm) (x : WSess) : ConEv → Option WSess
  | .call op r =>
    match op.run u t x.s with
    | .ok r' s =>
      if r' = r ∧ s.w.log = x.s.w.log ++ s.w.log.drop x.s.w.log.length then
        (checkPlay u t.inH (s.w.log.drop x.s.w.log.length) x.c).map fun c => ⟨s, c⟩
      else none
    | _ => none
  | .window o => (x.c.outs x.s.w.outH).bind fun o0 =>
    if o.word = o0.word ∧ o.pend = o0.pend ∧ ConSize o.glyph.size ∧ WholeWindow o then
      some { x with c := x.c.setOut x.s.w.outH o }
    else none

/-- `ConEv.current` as a function. -/
def conKnown (x : WSess) (f : Bool) : ConEv → Bool
  | .call (.readEvent _) (some (.resize z)) => decide ((x.c.outs x.s.w.outH).map (·.glyph.size) = some z)
  | .call _ _ => f
  | .window _ => false

theorem known_current (x : WSess) (f : Bool) (e : ConEv) : (conKnown x f e = true) = e.current x (f = true) := by
  unfold conKnown ConEv.current
  split <;> simp

/-- A history on a console; whether the size is known in the end. -/
def histW (u : UEnv) (t : WTerm) : List ConEv → WSess → Bool → Option (WSess × Bool)
  | [], x, f => some (x, f)
  | e :: es, x, f => (conStep u t x e).bind fun x' => histW u t es x' (conKnown x f e)

theorem histW_sound {K : BufOp → Prop} {u : UEnv} {t : WTerm} : ∀ (es : List ConEv) (x : WSess) (f : Bool) (y : WSess) (g : Bool),
    (∀ op r, .call op r ∈ es → ∀ s, op.FineBy K u t s) →
    histW u t es x f = some (y, g) → WHistBy K u t x (f = true) es y (g = true)
  | [], x, f, y, g, _, h => by cases h; exact .done x _
  | e :: es, x, f, y, g, hf, h => by
    unfold histW at h
    obtain ⟨x', h1, h2⟩ := Option.bind_eq_some_iff.mp h
    have ih := histW_sound es _ _ _ _ (fun o r ho => hf o r (List.mem_cons_of_mem _ ho)) h2
    rw [known_current] at ih
    cases e with
    | call op r =>
      unfold conStep at h1
      dsimp only at h1
      split at h1
      · split at h1
        · rename_i r s hrun hl
          obtain ⟨rfl, hl⟩ := hl
          obtain ⟨c, k1, rfl⟩ := Option.map_eq_some_iff.mp h1
          obtain ⟨k3, k4⟩ := checkPlay_sound _ _ _ k1
          exact .call (hf op _ List.mem_cons_self _) hrun hl (play_lives _ _ _ k3 k4) ih
        · cases h1
      · cases h1
    | window o =>
      obtain ⟨o0, k1, k2⟩ := Option.bind_eq_some_iff.mp (show (x.c.outs x.s.w.outH).bind _ = _ from h1)
      split at k2
      · rename_i hw
        cases k2
        exact .window k1 hw.1 hw.2.1 hw.2.2.1 hw.2.2.2 ih
      · cases k2

/-- A program that writes the characters that are typed. -/
def echo : Paints := List.filterMap fun
  | .key (.char c) => some (.writeStr [c])
  | _ => none

theorem echo_user : OfUser echo := by
  intro l
  induction l with
  | nil => rfl
  | cons e l ih =>
    cases e with
    | key k => cases k <;> simp [echo, fromUser] <;> exact ih
    | _ => simp [echo, fromUser]; exact ih

/-- The user types `a`, the Up key and `b`. -/
def echoActs : List UserAct := [.key (.char 'a'), .key .up, .key (.char 'b')]

def echoSent : Bytes := asc "a" ++ [27, 79, 65] ++ asc "b"

/-- The xterm has sent everything at once. -/
def echoUS : US :=
  { smallUS 0 with
    sched := List.replicate 6 (okStep 0) ++ readSteps 5
    input := echoSent }

def echoOps : List ScrOp :=
  [.readEvent none, .draw (.writeStr ['a']), .readEvent none, .readEvent none, .draw (.writeStr ['b']), .refresh]

def echoResults : List (URet × Bool) :=
  [(.event (some (.key (.char 'a'))), true), (.unit, true), (.event (some (.key .up)), true),
   (.event (some (.key (.char 'b'))), true), (.unit, true), (.unit, true)]

/-- At the console the first key is released, too. -/
def echoRecs : List InRec :=
  [.key ⟨true, 0x41, 0x61, 0⟩, .key ⟨false, 0x41, 0x61, 0⟩, .key ⟨true, 0x26, 0, 0x100⟩, .key ⟨true, 0x42, 0x62, 0⟩]

def echoSteps : List ConStep :=
  (echoRecs.zipIdx.flatMap fun x =>
    [⟨if x.2 = 0 then echoRecs.map .input else [], .ok⟩, ⟨[], .ok⟩, ⟨[], .ok⟩, ⟨[], .recs [x.1]⟩]) ++
  [⟨[], .wrote 1⟩, ⟨[], .wrote 1⟩]

/-- What happens, but for the last refresh. -/
def echoEvs : List ConEv :=
  [.call (.readEvent none) (some (.key (.char 'a'))), .call (.draw (.writeStr ['a'])) none,
   .call (.readEvent none) (some .noEvent), .call (.readEvent none) (some (.key .up)),
   .call (.readEvent none) (some (.key (.char 'b'))), .call (.draw (.writeStr ['b'])) none]

def echoEnd : WSess :=
  ((histW demoEnv demoTerm (echoEvs ++ [.call .refresh none]) (showOpen echoSteps) true).getD (showOpen [], false)).1

theorem echo_hist : WHist demoEnv demoTerm (showOpen echoSteps) True (echoEvs ++ [.call .refresh none]) echoEnd True := by
  have h : (histW demoEnv demoTerm (echoEvs ++ [.call .refresh none]) (showOpen echoSteps) true).map Prod.snd =
    some true := by decide +kernel
  obtain ⟨⟨y, g⟩, h1, h2⟩ := Option.map_eq_some_iff.mp h
  have := histW_sound (K := NarrowDraw demoEnv) _ _ _ y g (by
    intro op r hop s
    simp only [echoEvs, List.cons_append, List.nil_append, List.mem_cons, List.not_mem_nil, or_false,
      ConEv.call.injEq] at hop
    rcases hop with h | h | h | h | h | h | h <;> obtain ⟨rfl, -⟩ := h
    case' inr.inl => exact ⟨nofun, by decide, by unfold ThinMarks; decide⟩
    case' inr.inr.inr.inr.inr.inl => exact ⟨nofun, by decide, by unfold ThinMarks; decide⟩
    all_goals trivial) h1
  cases h2
  rw [true_eq] at this
  unfold echoEnd
  rw [h1]
  exact this

theorem echo_queued : Queued 0x1A8 0 (echoActs.map .user) echoRecs 0 := by
  refine .key _ _ (by decide) (by decide) ⟨rfl, not_named (by decide), by decide, fun i hi => by simp⟩ ?_
  refine .idle _ (Or.inl rfl) ?_
  refine .key _ _ (by decide) (by decide) ⟨rfl, by decide⟩ ?_
  exact .key _ _ (by decide) (by decide) ⟨rfl, not_named (by decide), by decide, fun i hi => by simp⟩ (.nil _)

/-- Non-trivial case: the user types `a`, Up and `b` at a program that writes what is typed, on an xterm and
on a console. Both show `ab`. -/
example : ∃ scr s1 v1 y o,
    screenNew xtermU (winCfg .new false false) echoUS = .ok scr s1 ∧ liveVt.Looks demoEnv true echoUS s1 v1 ∧
    VRun demoEnv true xtermU ⟨scr.data, s1, v1⟩ (callsOf echoOps echoResults) y ∧
    s1.inBuf ++ s1.input = v1.sent echoActs ∧
    WHist demoEnv demoTerm (showOpen echoSteps) True (echoEvs ++ [.call .refresh none]) echoEnd True ∧
    echoEnd.c.outs echoEnd.s.w.outH = some o ∧ SamePicture demoTerm.defAttrs y.v.t o ∧
    o.glyph.cell ⟨0, 0⟩ = .narrow ['a'] () ∧ o.glyph.cell ⟨0, 1⟩ = .narrow ['b'] () ∧
    y.v.t.cur = some ⟨0, 2⟩ := by
  have hseq : sequences xtermKeys xtermName = some xtermU.seqs := by
    obtain ⟨m, h1, -⟩ := C26_terminal_table xtermKeys xtermName
    show _ = some ((sequences xtermKeys xtermName).getD .new)
    rw [h1]; rfl
  obtain ⟨scr, s1, hnew, hf⟩ := okOf_any (r := screenNew xtermU (winCfg .new false false) echoUS)
    (f := fun x => decide (SizeKept echoUS x.2 ∧ x.2.inBuf ++ x.2.input = echoSent ∧
      x.1.data.buf.size = ⟨2, 3⟩ ∧
      (liveTrace demoEnv xtermU echoOps x.1.data x.2).map Prod.fst = some echoResults ∧
      (List.range 7).map (fun n => (liveTrace demoEnv xtermU (echoOps.take n) x.1.data x.2).map
        fun y => y.2.2.input) = some echoSent :: List.replicate 6 (some []) ∧
      (liveTrace demoEnv xtermU echoOps x.1.data x.2).map
        (fun y => y.2.2.inBuf ++ y.2.2.input) = some [] ∧
      (liveVt.feed demoEnv true (newBytes echoUS x.2)).sent echoActs = echoSent)) (by decide +kernel)
  obtain ⟨hk, hi, hsz, ht, hc, hem, hse⟩ := of_decide_eq_true hf
  obtain ⟨⟨rs, d, s⟩, ht, hrs⟩ := Option.map_eq_some_iff.mp ht
  cases hrs
  rw [ht] at hem
  have hg0 : GoodWindow echoUS := by
    refine ⟨?_, ?_, ?_⟩
    · unfold ScreenSize GoodSize; decide
    · intro st hst z hz
      have : ∀ st ∈ echoUS.sched, st.resize = none := by decide
      rw [this st hst] at hz; cases hz
    · decide
  have hg := (passed_new hnew).window (fun h => ((flushedK_screenNew xtermU _).ok hnew h).1) hg0
  obtain ⟨v2, hr⟩ := vlive_of_trace (crlf := true) (liveVt.feed demoEnv true (newBytes echoUS s1)) hg ht
  have hu : VUsed echoUS liveVt := by
    refine ⟨⟨[], echoUS.w.os, ?_, rfl⟩, rfl, liveVt_ready, rfl, rfl, rfl⟩
    intro n hn
    have : ∀ r ∈ echoUS.w.os, r = .all ∨ r = .eintr := by decide
    rcases this _ hn with h | h <;> cases h
  have hpos : ∀ a ∈ echoActs, a.Possible := by
    intro a ha
    simp only [echoActs, List.mem_cons, List.not_mem_nil, or_false] at ha
    rcases ha with rfl | rfl | rfl
    · show ¬ Control _; decide
    · trivial
    · show ¬ Control _; decide
  have hap : EscapeApart (echoActs.filter (AskedFor (winCfg .new false false))) := by
    intro l c r e
    have h1 : UserAct.key .escape ∈ echoActs.filter (AskedFor (winCfg .new false false)) := by
      rw [e]; simp
    have h2 := (List.mem_filter.mp h1).1
    simp [echoActs] at h2
  have hlo : liveVt.Looks demoEnv true echoUS s1 (liveVt.feed demoEnv true (newBytes echoUS s1)) :=
    ⟨fun _ => rfl, fun h => (h hk).elim⟩
  have hcut : ∀ es1 es2 z, callsOf echoOps echoResults = es1 ++ es2 →
      VRun demoEnv true xtermU ⟨scr.data, s1, liveVt.feed demoEnv true (newBytes echoUS s1)⟩ es1 z →
      Unbroken (liveVt.feed demoEnv true (newBytes echoUS s1)) echoActs z.s.input := by
    intro es1 es2 z he h1
    have hw : ∀ y, LiveEv.window y ∉ es1 := by
      intro y hy
      have h2 : LiveEv.window y ∈ callsOf echoOps echoResults := by
        rw [he]; exact List.mem_append_left _ hy
      exact absurd h2 (by
        unfold callsOf echoOps echoResults
        simp)
    have h3 := trace_of_vrun h1 hw
    obtain ⟨n, hn, ho⟩ : ∃ n, n < 7 ∧ opsIn es1 = echoOps.take n := by
      have e1 : opsIn (callsOf echoOps echoResults) = echoOps := rfl
      have e2 : ∀ (a b : List LiveEv), opsIn (a ++ b) = opsIn a ++ opsIn b := by
        intro a b
        induction a with
        | nil => rfl
        | cons x a ih => cases x <;> simp [opsIn, ih]
      rw [he, e2] at e1
      refine ⟨(opsIn es1).length, ?_, by rw [← e1, List.take_left']; rfl⟩
      have := congrArg List.length e1
      rw [List.length_append] at this
      have : echoOps.length = 6 := rfl
      omega
    rw [ho] at h3
    obtain ⟨⟨rs', d', s'⟩, h4, h5⟩ := Option.map_eq_some_iff.mp h3
    have h6 := congrArg (fun l => l[n]?) hc
    simp only [List.getElem?_map, List.getElem?_range hn, Option.map_some] at h6
    rw [h4] at h6
    have hs' : s' = z.s := by cases h5; rfl
    subst hs'
    match n, hn, h6 with
    | 0, _, h6 =>
      exact ⟨[], echoActs, rfl, Or.inl ((Option.some.inj (Option.some.inj h6)).trans hse.symm)⟩
    | n + 1, hn, h6 =>
      rw [List.getElem?_cons_succ, List.getElem?_replicate, if_pos (by omega)] at h6
      exact ⟨echoActs, [], (List.append_nil _).symm, Or.inl (Option.some.inj (Option.some.inj h6))⟩
  have hm := C72_modes demo_table (env := xtermU) rfl rfl hu hg0.2.2 rfl ⟨rfl, rfl, rfl, rfl, rfl⟩ hnew hlo (.done _)
  have p2 : ((echoEnd.c.outs echoEnd.s.w.outH).map fun o => (o.glyph.cell ⟨0, 0⟩, o.glyph.cell ⟨0, 1⟩,
      o.glyph.cur)) = some (.narrow ['a'] (), .narrow ['b'] (), some ⟨0, 2⟩) := by decide +kernel
  obtain ⟨o, o1, -, o2, o3, -⟩ := C83_same demo_table (cfg := winCfg .new false false) (env := xtermU) rfl rfl hseq rfl
    hu hg0 rfl ⟨rfl, rfl, rfl, rfl, rfl⟩ hnew hlo (es := callsOf (echoOps.take 5) (echoResults.take 5))
    (op := .refresh) (r := .unit) (kept := true) hr (by
      intro n t r' k h
      have h' : LiveEv.call (.readRaw n t) r' k ∈ callsOf echoOps echoResults := h
      simp [callsOf, echoOps, echoResults] at h')
    (by
      intro op' r' k' h
      have h' : LiveEv.call op' r' k' ∈ callsOf echoOps echoResults := h
      simp only [callsOf, echoOps, echoResults, List.zipWith_cons_cons, List.zipWith_nil_left, List.mem_cons,
        List.not_mem_nil, or_false, LiveEv.call.injEq] at h'
      rcases h' with h | h | h | h | h | h <;> obtain ⟨rfl, -, -⟩ := h
      case' inr.inl => exact ⟨nofun, by decide, by unfold ThinMarks; decide⟩
      case' inr.inr.inr.inr.inl => exact ⟨nofun, by decide, by unfold ThinMarks; decide⟩
      all_goals trivial)
    (Or.inl rfl) (by rw [decide_eq_true hk]; rfl) hpos
    (C72_escape_apart rfl hm hpos hap) (hi.trans hse.symm) hcut (Option.some.inj hem)
    (t := demoTerm) (by rw [hsz]; unfold ConSize GoodSize; decide) (c0 := demoCon)
    (ws0 := demoSt (sessEnterOs ++ ⟨[], .ok⟩ :: echoSteps)) (old := ⟨⟨0x1F7, false⟩, 2⟩) (oa := demoOut) (oz := demoOut)
    (wx := showOpen echoSteps) demoCon_sane rfl rfl rfl rfl (by rw [hsz]; rfl) rfl rfl showOpen_runs.1 showOpen_runs.2
    (showOpen_whole echoSteps) (echo_hist) (by simp [echoEvs]) (Or.inl rfl)
    (D' := echoEnd.s.w.log.drop (showOpen echoSteps).s.w.log.length) (by decide +kernel)
    (wacts := echoActs.map .user) (held' := 0)
    (by
      intro a ha
      simp only [echoActs, List.map_cons, List.map_nil, List.mem_cons, List.not_mem_nil, or_false] at ha
      rcases ha with rfl | rfl | rfl
      · exact ⟨by decide, by decide⟩
      · trivial
      · exact ⟨by decide, by decide⟩)
    (by intro w; simp)
    (by
      rw [show (showOpen echoSteps).c.queue ++ arriving (echoEnd.s.w.log.drop (showOpen echoSteps).s.w.log.length) =
        echoRecs by decide +kernel]
      exact echo_queued)
    (by decide +kernel) rfl (Or.inl rfl) echo echo_user rfl rfl
  rw [o1, Option.map_some, Option.some.injEq] at p2
  simp only [Prod.mk.injEq] at p2
  exact ⟨scr, s1, _, _, o, hnew, hlo, hr, hi.trans hse.symm, echo_hist, o1, o2, p2.1, p2.2.1, o3.symm.trans p2.2.2⟩

/-- A program that writes the characters that are typed, and has changes of size followed. -/
def echoSized : Paints := List.filterMap fun
  | .key (.char c) => some (.writeStr [c])
  | .resize z => some (.resize z)
  | _ => none

/-- What the console of the examples becomes: one long line of garbage. -/
def lowOut : OutBuf := { scrawled with glyph := { scrawled.glyph with size := ⟨1, 4⟩ }, window := ⟨0, 0, 3, 0⟩ }

def sizedActs : List ConAct := [.user (.key (.char 'a')), .resize ⟨1, 4⟩, .user (.key (.char 'b'))]

def sizedRecs : List InRec := [.key ⟨true, 0x41, 0x61, 0⟩, .size ⟨4, 1⟩, .key ⟨true, 0x42, 0x62, 0⟩]

def sizedSteps : List ConStep :=
  [⟨(sizedRecs.take 1).map .input, .ok⟩, ⟨[], .ok⟩, ⟨[], .ok⟩, ⟨[], .recs (sizedRecs.take 1)⟩, ⟨[], .wrote 1⟩,
   ⟨(sizedRecs.drop 1).map .input, .ok⟩, ⟨[], .ok⟩, ⟨[], .ok⟩, ⟨[], .recs ((sizedRecs.drop 1).take 1)⟩,
   ⟨[], .ok⟩, ⟨[], .ok⟩, ⟨[], .ok⟩, ⟨[], .recs (sizedRecs.drop 2)⟩, ⟨[], .info ⟨⟨4, 1⟩, ⟨0, 0⟩, 7, ⟨0, 0, 3, 0⟩⟩⟩] ++
  List.replicate 4 ⟨[], .ok⟩ ++ List.replicate 4 ⟨[], .wrote 1⟩ ++ [⟨[], .ok⟩]

/-- One refresh is made after the change and before it is told. -/
def sizedEvs : List ConEv :=
  [.call (.readEvent none) (some (.key (.char 'a'))), .call (.draw (.writeStr ['a'])) none, .call .refresh none,
   .window lowOut, .call .refresh none, .call (.readEvent none) (some (.resize ⟨1, 4⟩)),
   .call (.readEvent none) (some (.key (.char 'b'))), .call (.draw (.writeStr ['b'])) none]

def sizedEnd : WSess :=
  ((histW demoEnv demoTerm (sizedEvs ++ [.call .refresh none]) (showOpen sizedSteps) true).getD (showOpen [], false)).1

theorem sized_hist :
    WHist demoEnv demoTerm (showOpen sizedSteps) True (sizedEvs ++ [.call .refresh none]) sizedEnd True := by
  have h : (histW demoEnv demoTerm (sizedEvs ++ [.call .refresh none]) (showOpen sizedSteps) true).map Prod.snd =
    some true := by decide +kernel
  obtain ⟨⟨y, g⟩, h1, h2⟩ := Option.map_eq_some_iff.mp h
  have := histW_sound (K := NarrowDraw demoEnv) _ _ _ y g (by
    intro op r hop s
    simp only [sizedEvs, List.cons_append, List.nil_append, List.mem_cons, List.not_mem_nil, or_false,
      ConEv.call.injEq, reduceCtorEq, false_or] at hop
    rcases hop with h | h | h | h | h | h | h | h <;> obtain ⟨rfl, -⟩ := h
    case' inr.inl => exact ⟨nofun, by decide, by unfold ThinMarks; decide⟩
    case' inr.inr.inr.inr.inr.inr.inl => exact ⟨nofun, by decide, by unfold ThinMarks; decide⟩
    all_goals trivial) h1
  cases h2
  rw [true_eq] at this
  unfold sizedEnd
  rw [h1]
  exact this

theorem sized_queued : Queued 0x1A8 0 sizedActs sizedRecs 0 := by
  refine .key _ _ (by decide) (by decide) ⟨rfl, not_named (by decide), by decide, fun i hi => by simp⟩ ?_
  refine .size _ (by decide) ?_
  exact .key _ _ (by decide) (by decide) ⟨rfl, not_named (by decide), by decide, fun i hi => by simp⟩ (.nil _)

/-- Non-trivial case for `C83_console`: the console changes its size between two keys and shows garbage.
In the end it shows what was typed, on a line of the new length. -/
example : ∃ events b o, events = (sizedEvs ++ [ConEv.call .refresh none]).flatMap ConEv.tells ∧
    told events = sizedActs.map ConAct.event ∧ runOps demoEnv (echoSized events) (Buf.new ⟨2, 3⟩) = some b ∧
    sizedEnd.c.outs sizedEnd.s.w.outH = some o ∧ ConShows demoEnv demoTerm.defAttrs o b ∧
    o.glyph.size = ⟨1, 4⟩ ∧ o.glyph.cell ⟨0, 0⟩ = .narrow ['a'] () ∧ o.glyph.cell ⟨0, 1⟩ = .narrow ['b'] () ∧
    o.glyph.cell ⟨0, 2⟩ = .narrow [' '] () := by
  have hsize : ConSize ⟨1, 4⟩ := by decide
  have p2 : ((sizedEnd.c.outs sizedEnd.s.w.outH).map fun o => (o.glyph.size, o.glyph.cell ⟨0, 0⟩,
      o.glyph.cell ⟨0, 1⟩, o.glyph.cell ⟨0, 2⟩)) =
    some (⟨1, 4⟩, .narrow ['a'] (), .narrow ['b'] (), .narrow [' '] ()) := by decide +kernel
  obtain ⟨evs, l, r, b, e1, -, -, -, e2, e3, -, e4⟩ := C83_console (u := demoEnv) demo_table
    (cfg := winCfg .new false false) (t := demoTerm) (z := ⟨2, 3⟩) (by decide) (c0 := demoCon)
    (s0 := demoSt (sessEnterOs ++ ⟨[], .ok⟩ :: sizedSteps)) (old := ⟨⟨0x1F7, false⟩, 2⟩) (oa := demoOut) (oz := demoOut)
    (x := showOpen sizedSteps) demoCon_sane rfl rfl rfl rfl rfl rfl rfl showOpen_runs.1 showOpen_runs.2
    (showOpen_whole sizedSteps) sized_hist (Or.inl rfl)
    (D' := sizedEnd.s.w.log.drop (showOpen sizedSteps).s.w.log.length) (by decide +kernel)
    (wacts := sizedActs) (held' := 0)
    (by
      intro a ha
      simp only [sizedActs, List.mem_cons, List.not_mem_nil, or_false] at ha
      rcases ha with rfl | rfl | rfl <;> exact ⟨by decide, by decide⟩)
    (by
      intro w hw
      simp only [sizedActs, List.mem_cons, List.not_mem_nil, or_false, ConAct.resize.injEq, reduceCtorEq, false_or] at hw
      rw [hw]
      exact hsize)
    (by
      rw [show (showOpen sizedSteps).c.queue ++ arriving (sizedEnd.s.w.log.drop (showOpen sizedSteps).s.w.log.length) =
        sizedRecs by decide +kernel]
      exact sized_queued)
    echoSized rfl
  obtain ⟨o, o1, -, o2, -⟩ := e4 trivial
  rw [o1, Option.map_some, Option.some.injEq] at p2
  simp only [Prod.mk.injEq] at p2
  refine ⟨evs, b, o, e1, ?_, e3, o1, o2, p2.1, p2.2.1, p2.2.2.1, p2.2.2.2⟩
  exact e2 (by decide +kernel)

end Mortal
