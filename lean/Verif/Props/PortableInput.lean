import Verif.Spec.PortableInput
import Verif.Props.VtMods
import Verif.Props.WinUser
import Verif.Props.WinKeys

/-!
# The same user is told of in the same way on Unix and on Windows (C82)
-/

namespace Mortal
open Spec

theorem user_events {cfg : PrepareConfig} : ∀ {acts : List ConAct},
    (cfg.blockSignals = true ∨ UserAct.key (.ctrl 'c') ∉ acts.filterMap ConAct.byUser) →
    fromUser ((acts.filter (ConAsked cfg)).map ConAct.event) =
      ((acts.filterMap ConAct.byUser).filter (AskedFor cfg)).map UserAct.event := by
  intro acts
  induction acts with
  | nil => intro _; rfl
  | cons a acts ih =>
    intro hc
    cases a with
    | resize z =>
      rw [List.filter_cons_of_pos rfl, List.map_cons]
      exact ih hc
    | user a =>
      have hc' : cfg.blockSignals = true ∨ UserAct.key (.ctrl 'c') ∉ acts.filterMap ConAct.byUser := by
        rcases hc with h | h
        · exact Or.inl h
        · exact Or.inr fun h' => h (List.mem_cons_of_mem _ h')
      have e : ConAsked cfg (.user a) = AskedFor cfg a := by
        cases a with
        | mouse b p m => rfl
        | key k =>
          show (k != .ctrl 'c' || cfg.blockSignals) = true
          rcases hc with h | h
          · rw [h, Bool.or_true]
          · by_cases hk : k = .ctrl 'c'
            · subst hk; exact (h List.mem_cons_self).elim
            · simp [hk]
      have ih := ih hc'
      show fromUser (((ConAct.user a :: acts).filter (ConAsked cfg)).map ConAct.event) =
        ((a :: acts.filterMap ConAct.byUser).filter (AskedFor cfg)).map UserAct.event
      cases ha : AskedFor cfg a with
      | false =>
        rw [List.filter_cons_of_neg (by rw [e, ha]; decide), List.filter_cons_of_neg (by rw [ha]; decide)]
        exact ih
      | true =>
        rw [List.filter_cons_of_pos (by rw [e, ha]), List.filter_cons_of_pos ha, List.map_cons, List.map_cons,
          ← ih]
        cases a <;> rfl

/-- Two accounts of what was done. -/
theorem same_told {cfg : PrepareConfig} {acts l r : List UserAct} {wacts done rest : List ConAct}
    (same : wacts.filterMap ConAct.byUser = acts)
    (hc : cfg.blockSignals = true ∨ UserAct.key (.ctrl 'c') ∉ acts)
    (h1 : acts = l ++ r) (h2 : wacts = done ++ rest) :
    let a := (l.filter (AskedFor cfg)).map UserAct.event
    let b := fromUser ((done.filter (ConAsked cfg)).map ConAct.event)
    a <+: b ∨ b <+: a := by
  intro a b
  have hb : b = ((done.filterMap ConAct.byUser).filter (AskedFor cfg)).map UserAct.event := by
    refine user_events ?_
    rcases hc with h | h
    · exact Or.inl h
    · refine Or.inr fun h' => h ?_
      rw [← same, h2, List.filterMap_append]
      exact List.mem_append_left _ h'
  have p1 : l <+: acts := h1 ▸ List.prefix_append _ _
  have p2 : done.filterMap ConAct.byUser <+: acts := by
    rw [← same, h2, List.filterMap_append]; exact List.prefix_append _ _
  rw [hb]
  rcases List.prefix_or_prefix_of_prefix p1 p2 with h | h
  · exact Or.inl ((h.filter _).map _)
  · exact Or.inr ((h.filter _).map _)

/-- When nothing is left to be read, the program has been told all it asked for. -/
theorem all_told {cfg : PrepareConfig} (hkey : cfg.enableKeypad = true) {v : Vt}
    (hm : v.Modes ⟨cfg.enableKeypad, cfg.enableMouse, cfg.enableMouse && cfg.alwaysTrackMotion⟩)
    {acts l r : List UserAct} (hp : ∀ a ∈ acts, a.Possible) (h1 : acts = l ++ r) (h3 : v.sent r = []) :
    acts.filter (AskedFor cfg) = l.filter (AskedFor cfg) := by
  have hv : v.mode 1 = true := by rw [← hkey]; exact hm.keys
  have hs := heard_sends hm (acts := r)
  have hr' : v.sent (r.filter (heardBy v)) = [] := by rw [sent_heard, h3]
  have := none_sent hv (fun a ha => hp a (by
    rw [h1]; exact List.mem_append_right _ (List.mem_filter.mp ha).1)) hs hr'
  rw [List.filter_congr (fun a _ => heard_asked hm a)] at this
  rw [h1, List.filter_append, this, List.append_nil]

/-- **C82.** The same program runs with a screen at an xterm and at a Windows console, with the same
configuration, and the same user does the same things with keyboard and mouse; sizes may change and
signals arrive as they like. Then the key and mouse events the program is told on one system are, in the
same order, those it is told on the other, up to those it has not read yet; once everything has been read
on both, they are the same. -/
theorem C82_events {u : UEnv} (hT : TableOk u) {cfg : PrepareConfig}
    -- on Unix
    {crlf : Bool} {env : REnv} (hx : env.w = xtermDB)
    (hn : env.xterm = true) (hseq : sequences xtermKeys xtermName = some env.seqs)
    (hkey : cfg.enableKeypad = true) {s0 s1 : US} {scr : ScreenU} {v0 v1 : Vt}
    (hu : VUsed s0 v0) (hw : TakesAll s0.w.os)
    (hlog : devModes s0.w.log = ⟨false, false, false⟩) (hoff : v0.Modes ⟨false, false, false⟩)
    (hnew : screenNew env cfg s0 = .ok scr s1) (hl : v0.Looks u crlf s0 s1 v1)
    {es : List LiveEv} {y : VLive} (hrun : VRun u crlf env ⟨scr.data, s1, v1⟩ es y)
    (hraw : ∀ n t r k, LiveEv.call (.readRaw n t) r k ∉ es)
    {acts : List UserAct} (hp : ∀ a ∈ acts, a.Possible) (he : EscapeClear v1 (acts.filter (AskedFor cfg)))
    (hin : s1.inBuf ++ s1.input = v1.sent acts)
    (hcut : ∀ es1 es2 z, es = es1 ++ es2 → VRun u crlf env ⟨scr.data, s1, v1⟩ es1 z →
      Unbroken v1 acts z.s.input)
    -- on Windows
    (t : WTerm) (ops : List WScrOp) (s : WinSt) (x : WScreen) (wy wy' : WScr) (c c1 c' : Con)
    (n : List Event) (D D' : List WEv) (wacts : List ConAct) (held' : BitVec 32)
    (h : winScreenNew t cfg s = .ok (x, wy.toSData) wy.w) (hwl : wy.w.log = s.log ++ D)
    (hr : c.Runs u t.inH D) (hpl : c.play u t.inH D = some c1)
    (ho : ∀ op ∈ ops, op.Public) (h' : wsCallsMade u t ops wy = some (n, wy'))
    (hl' : wy'.w.log = wy.w.log ++ D') (hr' : c1.Runs u t.inH D') (hp' : c1.play u t.inH D' = some c')
    (ha : ∀ a ∈ wacts, a.Possible)
    (hq : Queued c1.inMode s.rd.prev wacts (c1.queue ++ arriving D') held')
    -- the same user
    (same : wacts.filterMap ConAct.byUser = acts)
    (hc : cfg.blockSignals = true ∨ UserAct.key (.ctrl 'c') ∉ acts) :
    (inputEvents (callResults es) <+: fromUser (told n) ∨
      fromUser (told n) <+: inputEvents (callResults es)) ∧
    (y.s.inBuf ++ y.s.input = [] → c'.queue = [] →
      inputEvents (callResults es) = fromUser (told n)) := by
  have hm := C72_modes hT hx hn hu hw hlog hoff hnew hl (.done _)
  obtain ⟨l, r, e1, e2, e3⟩ := C72_events hT hx hn hseq hkey hu hw hlog hoff hnew hl hrun hraw hp he hin hcut
  obtain ⟨done, rest, g1, g2, -, -, g3⟩ := C73_screen u hT.space t cfg ops s x wy wy' c c1 c' n D D' wacts
    held' h hwl hr hpl ho h' hl' hr' hp' ha hq
  refine ⟨?_, fun h1 h2 => ?_⟩
  · rw [e2, g2]; exact same_told same hc e1 g1
  · rw [g3 h2, user_events (by rw [same]; exact hc), same, e2,
      all_told hkey hm hp e1 (by rw [← e3]; exact h1)]

/-- **C82.** The same for a program that uses a `Terminal`, as long as the modes of the xterm are
those. -/
theorem C82_terminal {cfg : PrepareConfig}
    -- on Unix
    {env : REnv} (hseq : sequences xtermKeys xtermName = some env.seqs)
    (hkey : cfg.enableKeypad = true) {v : Vt}
    (hm : v.Modes ⟨cfg.enableKeypad, cfg.enableMouse, cfg.enableMouse && cfg.alwaysTrackMotion⟩)
    (uops : List UOp) (hops : ∀ n t, UOp.readRaw n t ∉ uops) (st st' : List PrepareState) (us us' : US)
    (rs : List URet) (hrun : runU env uops st us = some (rs, st', us'))
    {acts : List UserAct} (hp : ∀ a ∈ acts, a.Possible) (he : EscapeClear v (acts.filter (AskedFor cfg)))
    (hin : us.inBuf ++ us.input = v.sent acts)
    (hcut : ∀ ops1 ops2 rs1 st1 s1, uops = ops1 ++ ops2 → runU env ops1 st us = some (rs1, st1, s1) →
      Unbroken v acts s1.input)
    -- on Windows
    (u : UEnv) (t : WTerm) (ops : List SigOp) (s s1 s' : WinSt)
    (c c1 c' : Con) (p : WinPrepared) (n : List (SigOp × Option (Option Event × List InRec)))
    (D D' : List WEv) (wacts : List ConAct) (held' : BitVec 32)
    (h : winPrepare t cfg s = .ok p s1) (hl : s1.log = s.log ++ D) (hr : c.Runs u t.inH D)
    (hpl : c.play u t.inH D = some c1)
    (ho : ∀ op ∈ ops, op.Ordinary) (h' : callsMade t ops s1 = some (n, s')) (hl' : s'.log = s1.log ++ D')
    (hr' : c1.Runs u t.inH D') (hp' : c1.play u t.inH D' = some c')
    (ha : ∀ a ∈ wacts, a.Possible)
    (hq : Queued c1.inMode s.rd.prev wacts (c1.queue ++ arriving D') held')
    -- the same user
    (same : wacts.filterMap ConAct.byUser = acts)
    (hc : cfg.blockSignals = true ∨ UserAct.key (.ctrl 'c') ∉ acts) :
    (inputEvents rs <+: fromUser (toldEvents n) ∨ fromUser (toldEvents n) <+: inputEvents rs) ∧
    (us'.inBuf ++ us'.input = [] → c'.queue = [] → inputEvents rs = fromUser (toldEvents n)) := by
  obtain ⟨l, r, e1, e2, e3⟩ := C72_terminal hseq hkey hm uops hops st st' us us' rs hrun hp he hin hcut
  obtain ⟨done, rest, g1, g2, -⟩ := C73_events u t cfg ops s s1 s' c c1 c' p n D D' wacts held' h hl hr hpl ho
    h' hl' hr' hp' ha hq
  refine ⟨?_, fun h1 h2 => ?_⟩
  · rw [e2, g2]; exact same_told same hc e1 g1
  · rw [C73_all u t cfg ops s s1 s' c c1 c' p n D D' wacts held' h hl hr hpl ho h' hl' hr' hp' ha hq h2,
      user_events (by rw [same]; exact hc), same, e2, all_told hkey hm hp e1 (by rw [← e3]; exact h1)]

/-- **C82, negative.** With modifiers held it is never the same: a key that is not a character is told on
Windows without its modifiers, a character with Alt is not told at all, while on an xterm both are told as
Escape and the characters of a sequence (C75). -/
theorem C82_held_refuted {k : Key} {m : ModifierState} (h : (KeyAct.held k m).Possible) {r : KeyRec}
    (hr : HeldDown k m r) :
    keyPressEvent (.key r) = (match k with | .char _ => none | _ => some k) ∧
    ((keyPressEvent (.key r)).map Event.key).toList ≠ (KeyAct.held k m).told := by
  have h1 : keyPressEvent (.key r) = (match k with | .char _ => none | _ => some k) := by
    obtain ⟨hd, h1, -, -, h4⟩ := hr
    cases k with
    | char c =>
      obtain ⟨hm, -⟩ := h
      refine C49_altgr_lost r h4.1 ?_
      rw [hm] at h1
      rcases hb : r.keys.getLsbD 0 with _ | _
      · rw [hb] at h1; exact Or.inr (by simpa using h1.symm)
      · exact Or.inl rfl
    | _ => exact C49_named r _ h4 hd
  refine ⟨h1, fun e => ?_⟩
  have hlen := congrArg List.length e
  have hle : ((keyPressEvent (.key r)).map Event.key).toList.length ≤ 1 := by
    cases keyPressEvent (.key r) <;> simp
  have hne : heldText k m ≠ [] := by
    cases k <;> first | exact h.elim | skip
    all_goals (unfold heldText; first | (intro hx; cases hx) | (dsimp only; split <;> (intro hx; cases hx)))
  have : 0 < (heldText k m).length := List.length_pos_iff.mpr hne
  rw [hlen] at hle
  simp only [KeyAct.told, List.length_cons, List.length_map] at hle
  omega

/-! ### Examples -/

/-- A key and a turn of the wheel: `scrActs` without the new size. -/
def bothActs : List UserAct := [.key (.char 'a'), .mouse .wheelDown ⟨2, 2⟩ ⟨false, false, false⟩]

/-- What an xterm sends for it. -/
def bothSent : Bytes := asc "a" ++ esc "<65;3;3M"

def bothUS : US :=
  { smallUS 0 with
    sched := List.replicate 6 (okStep 0) ++ readSteps 1 ++ readSteps 10
    input := bothSent }

def bothResults : List (URet × Bool) := bothActs.map fun a => (.event (some a.event), true)

/-- The hypotheses of `C82_events` are met on both systems, and all has been read: on Unix as here, on
Windows by `scrActRun` (Props/WinUser.lean) with the same configuration. -/
example : ∃ scr s1 v1 y, VUsed bothUS liveVt ∧ TakesAll bothUS.w.os ∧ xtermU.w = xtermDB ∧ xtermU.xterm = true ∧
    sequences xtermKeys xtermName = some xtermU.seqs ∧ (winCfg .new true false).enableKeypad = true ∧
    devModes bothUS.w.log = ⟨false, false, false⟩ ∧ liveVt.Modes ⟨false, false, false⟩ ∧
    screenNew xtermU (winCfg .new true false) bothUS = .ok scr s1 ∧ liveVt.Looks demoEnv true bothUS s1 v1 ∧
    VRun demoEnv true xtermU ⟨scr.data, s1, v1⟩ (callsOf (List.replicate 2 (.readEvent none)) bothResults) y ∧
    (∀ a ∈ bothActs, a.Possible) ∧
    EscapeClear v1 (bothActs.filter (AskedFor (winCfg .new true false))) ∧
    s1.inBuf ++ s1.input = v1.sent bothActs ∧ y.s.inBuf ++ y.s.input = [] ∧
    (∀ es1 es2 z, callsOf (List.replicate 2 (.readEvent none)) bothResults = es1 ++ es2 →
      VRun demoEnv true xtermU ⟨scr.data, s1, v1⟩ es1 z → Unbroken v1 bothActs z.s.input) ∧
    scrActs.filterMap ConAct.byUser = bothActs ∧ (winCfg .new true false).blockSignals = true ∧
    (∀ a ∈ scrActs, a.Possible) ∧ Queued 0x1B8 0 scrActs scrActRecs 0 ∧
    scrActRun.map (fun x => fromUser x.1) =
      some (inputEvents (callResults (callsOf (List.replicate 2 (.readEvent none)) bothResults))) := by
  have hseq : sequences xtermKeys xtermName = some xtermU.seqs := by
    obtain ⟨m, h1, -⟩ := C26_terminal_table xtermKeys xtermName
    show _ = some ((sequences xtermKeys xtermName).getD .new)
    rw [h1]; rfl
  obtain ⟨scr, s1, hnew, hf⟩ := okOf_any (r := screenNew xtermU (winCfg .new true false) bothUS)
    (f := fun x => decide (SizeKept bothUS x.2 ∧ x.2.inBuf ++ x.2.input = bothSent ∧
      (liveTrace demoEnv xtermU (List.replicate 2 (.readEvent none)) x.1.data x.2).map Prod.fst = some bothResults ∧
      (List.range 3).map (fun n => (liveTrace demoEnv xtermU (List.replicate n (.readEvent none)) x.1.data x.2).map
        fun y => y.2.2.input) = [some bothSent, some (bothSent.drop 1), some []] ∧
      (liveTrace demoEnv xtermU (List.replicate 2 (.readEvent none)) x.1.data x.2).map
        (fun y => y.2.2.inBuf ++ y.2.2.input) = some [] ∧
      (liveVt.feed demoEnv true (newBytes bothUS x.2)).sent bothActs = bothSent ∧
      (liveVt.feed demoEnv true (newBytes bothUS x.2)).sent (bothActs.drop 1) = bothSent.drop 1)) (by decide +kernel)
  obtain ⟨hk, hi, ht, hc, hem, hse, hse1⟩ := of_decide_eq_true hf
  obtain ⟨⟨rs, d, s⟩, ht, hrs⟩ := Option.map_eq_some_iff.mp ht
  cases hrs
  rw [ht] at hem
  have hg0 : GoodWindow bothUS := by
    refine ⟨?_, ?_, ?_⟩
    · unfold ScreenSize GoodSize; decide
    · intro st hst z hz
      have : ∀ st ∈ bothUS.sched, st.resize = none := by decide
      rw [this st hst] at hz; cases hz
    · decide
  have hg := (passed_new hnew).window (fun h => ((flushedK_screenNew xtermU _).ok hnew h).1) hg0
  obtain ⟨v2, hr⟩ := vlive_of_trace (crlf := true) (liveVt.feed demoEnv true (newBytes bothUS s1)) hg ht
  have hu : VUsed bothUS liveVt := by
    refine ⟨⟨[], bothUS.w.os, ?_, rfl⟩, rfl, liveVt_ready, rfl, rfl, rfl⟩
    intro n hn
    have : ∀ r ∈ bothUS.w.os, r = .all ∨ r = .eintr := by decide
    rcases this _ hn with h | h <;> cases h
  have hpos : ∀ a ∈ bothActs, a.Possible := by
    intro a ha
    simp only [bothActs, List.mem_cons, List.not_mem_nil, or_false] at ha
    rcases ha with rfl | rfl
    · show ¬ Control _; decide
    · exact ⟨by decide, by decide, trivial⟩
  have hap : EscapeApart (bothActs.filter (AskedFor (winCfg .new true false))) := by
    intro l c r e
    have h1 : UserAct.key .escape ∈ bothActs.filter (AskedFor (winCfg .new true false)) := by
      rw [e]; simp
    have h2 := (List.mem_filter.mp h1).1
    simp [bothActs] at h2
  have hlo : liveVt.Looks demoEnv true bothUS s1 (liveVt.feed demoEnv true (newBytes bothUS s1)) :=
    ⟨fun _ => rfl, fun h => (h hk).elim⟩
  refine ⟨scr, s1, _, _, hu, hg0.2.2, rfl, rfl, hseq, rfl, rfl, ⟨rfl, rfl, rfl, rfl, rfl⟩, hnew, hlo, hr, hpos,
    C72_escape_apart rfl (C72_modes demo_table (env := xtermU) rfl rfl hu hg0.2.2 rfl ⟨rfl, rfl, rfl, rfl, rfl⟩ hnew hlo
      (.done _)) hpos hap, hi.trans hse.symm, Option.some.inj hem, ?_, rfl, rfl, scrActs_possible, scrActs_queued,
    by decide +kernel⟩
  intro es1 es2 z he h1
  have hw : ∀ y, LiveEv.window y ∉ es1 := by
    intro y hy
    have h2 : LiveEv.window y ∈ callsOf (List.replicate 2 (.readEvent none)) bothResults := by
      rw [he]; exact List.mem_append_left _ hy
    exact absurd h2 (by
      unfold callsOf bothResults bothActs
      simp)
  have h3 := trace_of_vrun h1 hw
  obtain ⟨n, hn, ho⟩ : ∃ n, n < 3 ∧ opsIn es1 = List.replicate n (.readEvent none) := by
    have e1 : opsIn (callsOf (List.replicate 2 (.readEvent none)) bothResults) =
        List.replicate 2 (.readEvent none) := rfl
    have e2 : ∀ (a b : List LiveEv), opsIn (a ++ b) = opsIn a ++ opsIn b := by
      intro a b
      induction a with
      | nil => rfl
      | cons x a ih => cases x <;> simp [opsIn, ih]
    rw [he, e2] at e1
    obtain ⟨e3, e4⟩ := List.append_eq_replicate_iff.mp e1 |>.2 |> fun h => h
    refine ⟨(opsIn es1).length, ?_, e3⟩
    have := congrArg List.length e1
    rw [List.length_append, List.length_replicate] at this
    omega
  rw [ho] at h3
  obtain ⟨⟨rs', d', s'⟩, h4, h5⟩ := Option.map_eq_some_iff.mp h3
  have h6 := congrArg (fun l => l[n]?) hc
  simp only [List.getElem?_map, List.getElem?_range hn, Option.map_some] at h6
  rw [h4] at h6
  have hs' : s' = z.s := by cases h5; rfl
  subst hs'
  match n, hn, h6 with
  | 0, _, h6 =>
    exact ⟨[], bothActs, rfl, Or.inl ((Option.some.inj (Option.some.inj h6)).trans hse.symm)⟩
  | 1, _, h6 =>
    exact ⟨bothActs.take 1, bothActs.drop 1, rfl, Or.inl ((Option.some.inj (Option.some.inj h6)).trans hse1.symm)⟩
  | 2, _, h6 =>
    exact ⟨bothActs, [], (List.append_nil _).symm, Or.inl (Option.some.inj (Option.some.inj h6))⟩

/-- Ctrl-Up, and Alt with `é`. -/
example : (KeyAct.held .up ⟨false, true, false⟩).Possible ∧ HeldDown .up ⟨false, true, false⟩ ⟨true, 0x26, 0, 0x108⟩ ∧
    (KeyAct.held (.char 'é') ⟨true, false, false⟩).Possible ∧
    HeldDown (.char 'é') ⟨true, false, false⟩ ⟨true, 0xDE, 0xE9, 2⟩ := by
  refine ⟨?_, ⟨rfl, by decide, by decide, by decide, by decide⟩, ?_,
    ⟨rfl, by decide, by decide, by decide, not_named (by decide), by decide⟩⟩
  · show _ ≠ _; decide
  · show _ = _ ∧ ¬ Control _ ∧ _ ≠ _ ∧ _ ≠ _; decide

/-- The user of `winActs` at an xterm with the modes of the same configuration. -/
def termVt : Vt := { liveVt with keypad := true, mode := fun n => decide (n = 1 ∨ n = 1006 ∨ n = 1002) }

def termActs : List UserAct := winActs.filterMap ConAct.byUser

/-- The hypotheses of `C82_terminal` are met: everything is in the buffer of the terminal. On Windows it is
the run of `winActRun` (Props/WinUser.lean). Eight of the nine acts are told on both systems; moving without
a button was not asked for. -/
example : sequences xtermKeys xtermName = some xtermU.seqs ∧ (winCfg .new true false).enableKeypad = true ∧
    termVt.Modes ⟨true, true, true && false⟩ ∧
    (∀ n t, UOp.readRaw n t ∉ List.replicate 8 (.readEvent none)) ∧
    (∀ a ∈ termActs, a.Possible) ∧ EscapeClear termVt (termActs.filter (AskedFor (winCfg .new true false))) ∧
    (demoUS (termVt.sent termActs) [] []).inBuf ++ (demoUS (termVt.sent termActs) [] []).input =
      termVt.sent termActs ∧
    (∀ ops1 ops2 rs1 st1 s1, List.replicate 8 (.readEvent none) = ops1 ++ ops2 →
      runU xtermU ops1 [] (demoUS (termVt.sent termActs) [] []) = some (rs1, st1, s1) →
      Unbroken termVt termActs s1.input) ∧
    ((runU xtermU (List.replicate 8 (.readEvent none)) [] (demoUS (termVt.sent termActs) [] [])).map fun x =>
      (inputEvents x.1, x.2.2.inBuf ++ x.2.2.input)) = winActRun.map (fun x => (fromUser x.1, [])) ∧
    winActRun.isSome = true := by
  have hpos : ∀ a ∈ termActs, a.Possible := by
    intro a ha
    have e : termActs = [.key (.char 'é'), .key (.ctrl 'c'), .key .up,
      .mouse (.press .right) ⟨3, 119⟩ ⟨false, true, false⟩, .mouse (.move (some .right)) ⟨3, 118⟩ ⟨false, false, false⟩,
      .mouse (.release .right) ⟨3, 118⟩ ⟨false, false, false⟩, .mouse (.move none) ⟨2, 2⟩ ⟨false, false, false⟩,
      .mouse .wheelDown ⟨2, 2⟩ ⟨false, false, false⟩, .key (.f 12)] := rfl
    rw [e] at ha
    simp only [List.mem_cons, List.not_mem_nil, or_false] at ha
    rcases ha with rfl | rfl | rfl | rfl | rfl | rfl | rfl | rfl | rfl
    · show ¬ Control _; decide
    · exact ⟨by decide, by decide, by decide, by decide, by decide⟩
    · trivial
    · exact ⟨by decide, by decide, trivial⟩
    · exact ⟨by decide, by decide, trivial⟩
    · exact ⟨by decide, by decide, trivial⟩
    · exact ⟨by decide, by decide, trivial⟩
    · exact ⟨by decide, by decide, trivial⟩
    · show _ ∧ _; decide
  have hap : EscapeApart (termActs.filter (AskedFor (winCfg .new true false))) := by
    intro l c r e
    have h1 : UserAct.key .escape ∈ termActs.filter (AskedFor (winCfg .new true false)) := by
      rw [e]; simp
    have h2 := (List.mem_filter.mp h1).1
    exact absurd h2 (by decide)
  have hm : termVt.Modes ⟨true, true, true && false⟩ := ⟨rfl, rfl, rfl, rfl, rfl⟩
  refine ⟨?_, rfl, hm, by simp, hpos, C72_escape_apart rfl hm hpos hap, List.append_nil _, ?_, by decide +kernel,
    by decide +kernel⟩
  · obtain ⟨m, h1, -⟩ := C26_terminal_table xtermKeys xtermName
    show _ = some ((sequences xtermKeys xtermName).getD .new)
    rw [h1]; rfl
  · intro ops1 ops2 rs1 st1 s1 e h
    obtain ⟨n, hn, rfl⟩ : ∃ n, n < 9 ∧ ops1 = List.replicate n (.readEvent none) := by
      obtain ⟨e3, e4⟩ := List.append_eq_replicate_iff.mp e.symm |>.2
      refine ⟨ops1.length, ?_, e3⟩
      have := congrArg List.length e
      rw [List.length_append, List.length_replicate] at this
      omega
    have hall : ∀ n, n < 9 → ((runU xtermU (List.replicate n (.readEvent none)) []
        (demoUS (termVt.sent termActs) [] [])).map fun x => x.2.2.input) = some [] := by decide +kernel
    have := hall n hn
    rw [h] at this
    exact ⟨termActs, [], (List.append_nil _).symm, Or.inl (Option.some.inj this)⟩

end Mortal
