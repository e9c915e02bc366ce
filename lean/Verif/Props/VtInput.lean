import Verif.Lemmas.ScrInput
import Verif.Props.VtClose
import Verif.Props.Pieces

/-!
# What the user does at an xterm is what the program is told (C72)
-/

namespace Mortal
open Spec

/-! ## The modes during a screen's life -/

/-- **C72.** While a screen is open on an xterm whose modes were off before, they are what the
configuration asks for, whatever calls are made, whatever their results, and whatever signals arrive
(among them SIGCONT, which has `prepare` done again). -/
theorem C72_modes {u : UEnv} (hT : TableOk u) {crlf : Bool} {env : REnv} (hx : env.w = xtermDB)
    (hn : env.xterm = true) {cfg : PrepareConfig} {s0 s1 : US} {scr : ScreenU} {v0 v1 : Vt}
    (hu : VUsed s0 v0) (hw : TakesAll s0.w.os)
    (hlog : devModes s0.w.log = ⟨false, false, false⟩) (hoff : v0.Modes ⟨false, false, false⟩)
    (hnew : screenNew env cfg s0 = .ok scr s1) (hl : v0.Looks u crlf s0 s1 v1)
    {es : List LiveEv} {y : VLive} (hrun : VRun u crlf env ⟨scr.data, s1, v1⟩ es y) :
    y.v.Modes ⟨cfg.enableKeypad, cfg.enableMouse, cfg.enableMouse && cfg.alwaysTrackMotion⟩ := by
  have h1 := vheld_open hx hu hw hnew hl
  have h2 := h1.run hT hx hrun
  have hm := h2.modes (by rw [hlog]; exact hoff)
  suffices h : devModes y.s.w.log = cfgModes cfg by rw [h] at hm; exact hm
  refine (modes_run (env := env) hT hx hrun (· = cfgModes cfg) h1.clean).2 ?_ ?_
  · intro c hc
    have := (C37_open env cfg scr s0 s1 hnew).2.2.2
    change s1.resume = _ at hc
    rw [this] at hc
    cases hc
    exact pres_cfg env cfg
  · obtain ⟨sa, sb, k1, k2, k3, -⟩ := screenNew_ok hnew
    obtain ⟨c1, -⟩ := termSize_ok k1
    obtain ⟨p1, -⟩ := prepare_ok k2
    show devModes s1.w.log = _
    rw [termEnter_modes hx k3, core_log p1]
    refine prepared_modes hx hn cfg ?_
    show devModes sa.w.log = _
    rw [core_log c1]
    exact hlog

/-- What is sent depends on the modes only. -/
theorem sends_modes {v v' : Vt} {d : DevModes} (h : v.Modes d) (h' : v'.Modes d) (a : UserAct) :
    v.sends a = v'.sends a := by
  have e1 : v.mode 1 = v'.mode 1 := h.keys.trans h'.keys.symm
  have e2 : v.mode 1006 = v'.mode 1006 := h.form.trans h'.form.symm
  have e3 : v.mode 1002 = v'.mode 1002 := h.buttons.trans h'.buttons.symm
  have e4 : v.mode 1003 = v'.mode 1003 := h.motion.trans h'.motion.symm
  cases a with
  | key k => show xtermKeyBytes _ _ = xtermKeyBytes _ _; rw [e1]
  | mouse a p m =>
    have er : v.reports a = v'.reports a := by
      unfold Vt.reports
      rw [e3, e4]
    unfold Vt.sends
    dsimp only
    rw [er, e2]

/-- **C72.** So at any time the xterm sends for what the user does what it sent when the screen was opened. -/
theorem C72_sends {u : UEnv} (hT : TableOk u) {crlf : Bool} {env : REnv} (hx : env.w = xtermDB)
    (hn : env.xterm = true) {cfg : PrepareConfig} {s0 s1 : US} {scr : ScreenU} {v0 v1 : Vt}
    (hu : VUsed s0 v0) (hw : TakesAll s0.w.os)
    (hlog : devModes s0.w.log = ⟨false, false, false⟩) (hoff : v0.Modes ⟨false, false, false⟩)
    (hnew : screenNew env cfg s0 = .ok scr s1) (hl : v0.Looks u crlf s0 s1 v1)
    {es : List LiveEv} {y : VLive} (hrun : VRun u crlf env ⟨scr.data, s1, v1⟩ es y) (a : UserAct) :
    y.v.sends a = v1.sends a :=
  sends_modes (C72_modes hT hx hn hu hw hlog hoff hnew hl hrun)
    (C72_modes hT hx hn hu hw hlog hoff hnew hl (.done _)) a

/-! ## What is read -/

theorem filter_split {α : Type} (p : α → Bool) : ∀ (acts : List α) (i : Nat), ∃ l r, acts = l ++ r ∧
    l.filter p = (acts.filter p).take i ∧ r.filter p = (acts.filter p).drop i
  | acts, 0 => ⟨[], acts, rfl, rfl, rfl⟩
  | [], i + 1 => ⟨[], [], rfl, rfl, rfl⟩
  | a :: acts, i + 1 => by
    by_cases h : p a = true
    · obtain ⟨l, r, e1, e2, e3⟩ := filter_split p acts i
      refine ⟨a :: l, r, by rw [e1]; rfl, ?_, ?_⟩
      · rw [List.filter_cons_of_pos h, List.filter_cons_of_pos h, e2]; rfl
      · rw [List.filter_cons_of_pos h, e3]; rfl
    · obtain ⟨l, r, e1, e2, e3⟩ := filter_split p acts (i + 1)
      refine ⟨a :: l, r, by rw [e1]; rfl, ?_, ?_⟩
      · rw [List.filter_cons_of_neg h, List.filter_cons_of_neg h, e2]
      · rw [List.filter_cons_of_neg h, e3]

/-- Keys, and what the mouse does if it is reported. -/
def heardBy (v : Vt) : UserAct → Bool
  | .key _ => true
  | .mouse a _ _ => v.reports a

theorem sent_heard (v : Vt) (acts : List UserAct) : v.sent (acts.filter (heardBy v)) = v.sent acts := by
  induction acts with
  | nil => rfl
  | cons a acts ih =>
    have e : v.sent (a :: acts) = v.sends a ++ v.sent acts := by simp [Vt.sent]
    by_cases h : heardBy v a = true
    · rw [List.filter_cons_of_pos h, e, ← ih]; simp [Vt.sent]
    · rw [List.filter_cons_of_neg h, e, ih]
      cases a with
      | key k => exact (h rfl).elim
      | mouse a p m =>
        have : v.sends (.mouse a p m) = [] := if_neg h
        rw [this]; rfl

theorem unbroken_heard {v : Vt} {acts : List UserAct} {unread : Bytes} (h : Unbroken v acts unread) :
    Unbroken v (acts.filter (heardBy v)) unread := by
  obtain ⟨l, r, rfl, h⟩ := h
  refine ⟨l.filter (heardBy v), r.filter (heardBy v), List.filter_append .., ?_⟩
  rw [sent_heard]
  rcases h with h | ⟨c, t, a, b, rfl, h1, h2⟩
  · exact Or.inl h
  · refine Or.inr ⟨c, t.filter (heardBy v), a, b, rfl, h1, ?_⟩
    rw [sent_heard]; exact h2

/-- What the modes of a screen on an xterm mean for what is heard. -/
theorem heard_asked {v : Vt} {cfg : PrepareConfig}
    (h : v.Modes ⟨cfg.enableKeypad, cfg.enableMouse, cfg.enableMouse && cfg.alwaysTrackMotion⟩) (a : UserAct) :
    heardBy v a = AskedFor cfg a := by
  have h3 : v.mode 1002 = cfg.enableMouse := h.buttons
  have h4 : v.mode 1003 = (cfg.enableMouse && cfg.alwaysTrackMotion) := h.motion
  cases a with
  | key k => rfl
  | mouse a p m =>
    show v.reports a = _
    cases a with
    | move b =>
      cases b with
      | none => exact h4
      | some b => show (v.mode 1002 || v.mode 1003) = cfg.enableMouse; rw [h3, h4]; cases cfg.enableMouse <;> rfl
    | _ => show (v.mode 1002 || v.mode 1003) = cfg.enableMouse; rw [h3, h4]; cases cfg.enableMouse <;> rfl

theorem heard_sends {v : Vt} {cfg : PrepareConfig}
    (h : v.Modes ⟨cfg.enableKeypad, cfg.enableMouse, cfg.enableMouse && cfg.alwaysTrackMotion⟩)
    {acts : List UserAct} : ∀ a ∈ acts.filter (heardBy v), Sends v a := by
  intro a ha
  have ha := (List.mem_filter.mp ha).2
  cases a with
  | key k => trivial
  | mouse a p m =>
    refine ⟨ha, ?_⟩
    rw [heard_asked h] at ha
    have h2 : v.mode 1006 = cfg.enableMouse := h.form
    rw [h2]
    cases he : cfg.enableMouse with
    | true => rfl
    | false =>
      unfold AskedFor at ha
      split at ha
      · rename_i e; cases e
      · rw [he] at ha; cases ha
      · rw [he] at ha; cases ha

theorem xterm_table {env : REnv} (hs : sequences xtermKeys xtermName = some env.seqs) :
    Table env.seqs (tableSpec xtermKeys xtermName) := by
  obtain ⟨m, h1, h2⟩ := C26_terminal_table xtermKeys xtermName
  rw [hs] at h1
  injection h1 with h1
  rw [h1]; exact h2

/-- **C72.** What the user does at an xterm is what the program is told. A program has a screen open with
`enable_keypad`, and possibly the mouse, on an xterm whose modes were off before; it uses it in any way,
except that it does not read raw bytes, while signals arrive and the window changes its size. The user
presses keys and uses the mouse. Then what `read_event` returns is what the user did, in order, so far as
the program asked for it; and what is still to be read is what the xterm sent for the rest. -/
theorem C72_events {u : UEnv} (hT : TableOk u) {crlf : Bool} {env : REnv} (hx : env.w = xtermDB)
    (hn : env.xterm = true) (hseq : sequences xtermKeys xtermName = some env.seqs)
    {cfg : PrepareConfig} (hkey : cfg.enableKeypad = true) {s0 s1 : US} {scr : ScreenU} {v0 v1 : Vt}
    (hu : VUsed s0 v0) (hw : TakesAll s0.w.os)
    (hlog : devModes s0.w.log = ⟨false, false, false⟩) (hoff : v0.Modes ⟨false, false, false⟩)
    (hnew : screenNew env cfg s0 = .ok scr s1) (hl : v0.Looks u crlf s0 s1 v1)
    {es : List LiveEv} {y : VLive} (hrun : VRun u crlf env ⟨scr.data, s1, v1⟩ es y)
    (hraw : ∀ n t r k, LiveEv.call (.readRaw n t) r k ∉ es)
    {acts : List UserAct} (hp : ∀ a ∈ acts, a.Possible) (he : EscapeClear v1 (acts.filter (AskedFor cfg)))
    (hin : s1.inBuf ++ s1.input = v1.sent acts)
    (hcut : ∀ es1 es2 z, es = es1 ++ es2 → VRun u crlf env ⟨scr.data, s1, v1⟩ es1 z →
      Unbroken v1 acts z.s.input) :
    ∃ l r, acts = l ++ r ∧ inputEvents (callResults es) = (l.filter (AskedFor cfg)).map UserAct.event ∧
      y.s.inBuf ++ y.s.input = v1.sent r := by
  have hm := C72_modes hT hx hn hu hw hlog hoff hnew hl (.done _)
  have hv : v1.mode 1 = true := by rw [← hkey]; exact hm.keys
  have ef : ∀ l : List UserAct, l.filter (heardBy v1) = l.filter (AskedFor cfg) :=
    fun l => List.filter_congr fun a _ => heard_asked hm a
  have hp' : ∀ a ∈ acts.filter (heardBy v1), a.Possible := fun a ha => hp a (List.mem_filter.mp ha).1
  have hs' := heard_sends hm (acts := acts)
  obtain ⟨i, -, g2, g3⟩ := vrun_pieces (xterm_table hseq) _ hrun hraw [] ((acts.filter (heardBy v1)).map actPiece) rfl
    (by rw [stream_acts hv hp' hs', sent_heard]; exact hin) (parsed_acts hv hp' hs' (by rw [ef]; exact he))
    fun es1 es2 z h1 h2 => unsplit_unbroken hv hp' hs' (unbroken_heard (hcut es1 es2 z h1 h2))
  obtain ⟨l, r, e1, e2, e3⟩ := filter_split (heardBy v1) acts i
  refine ⟨l, r, e1, ?_, ?_⟩
  · rw [g2, ← List.map_take, ← e2, events_acts fun a ha => hp a ?_, ef]
    rw [e1]; exact List.mem_append_left _ (List.mem_filter.mp ha).1
  · rw [g3, ← List.map_drop, ← e3, stream_acts hv (fun a ha => hp' a ?_) (fun a ha => hs' a ?_), sent_heard]
    · rw [e3] at ha; exact List.mem_of_mem_drop ha
    · rw [e3] at ha; exact List.mem_of_mem_drop ha

/-- **C72.** And nothing is lost: once all of it has been read, more calls of `read_event` return the
rest. -/
theorem C72_nothing_lost {env : REnv} (hseq : sequences xtermKeys xtermName = some env.seqs)
    {cfg : PrepareConfig} (hkey : cfg.enableKeypad = true) {v : Vt} {s : US}
    (hm : v.Modes ⟨cfg.enableKeypad, cfg.enableMouse, cfg.enableMouse && cfg.alwaysTrackMotion⟩)
    {acts : List UserAct} (hp : ∀ a ∈ acts, a.Possible) (he : EscapeClear v (acts.filter (AskedFor cfg)))
    (hin : s.inBuf = v.sent acts) (t : Option Nat) :
    readMany env t (acts.filter (AskedFor cfg)).length s =
      .ok ((acts.filter (AskedFor cfg)).map fun a => some a.event) { s with inBuf := [] } := by
  have hv : v.mode 1 = true := by rw [← hkey]; exact hm.keys
  have ef : acts.filter (heardBy v) = acts.filter (AskedFor cfg) :=
    List.filter_congr fun a _ => heard_asked hm a
  have hs' := heard_sends hm (acts := acts)
  have ei := sent_heard v acts
  rw [ef] at hs' ei
  have hp' : ∀ a ∈ acts.filter (AskedFor cfg), a.Possible := fun a ha => hp a (List.mem_filter.mp ha).1
  have h := read_pieces (xterm_table hseq) t ((acts.filter (AskedFor cfg)).map actPiece) s
    (by rw [stream_acts hv hp' hs', ei]; exact hin) (parsed_acts hv hp' hs' he)
  rw [List.length_map, List.map_map] at h
  have e : (acts.filter (AskedFor cfg)).map ((fun p => some p.event) ∘ actPiece) =
      (acts.filter (AskedFor cfg)).map fun a => some a.event :=
    List.map_congr_left fun a ha => congrArg some (actPiece_event (hp' a ha))
  rw [h, e]

/-- **C72.** The same for a program that uses a `Terminal` instead of a screen, as long as the modes are
those: whatever it calls, except `read_raw`. -/
theorem C72_terminal {env : REnv} (hseq : sequences xtermKeys xtermName = some env.seqs)
    {cfg : PrepareConfig} (hkey : cfg.enableKeypad = true) {v : Vt}
    (hm : v.Modes ⟨cfg.enableKeypad, cfg.enableMouse, cfg.enableMouse && cfg.alwaysTrackMotion⟩)
    (ops : List UOp) (hops : ∀ n t, UOp.readRaw n t ∉ ops) (st st' : List PrepareState) (s s' : US)
    (rs : List URet) (h : runU env ops st s = some (rs, st', s'))
    {acts : List UserAct} (hp : ∀ a ∈ acts, a.Possible) (he : EscapeClear v (acts.filter (AskedFor cfg)))
    (hin : s.inBuf ++ s.input = v.sent acts)
    (hcut : ∀ ops1 ops2 rs1 st1 s1, ops = ops1 ++ ops2 → runU env ops1 st s = some (rs1, st1, s1) →
      Unbroken v acts s1.input) :
    ∃ l r, acts = l ++ r ∧ inputEvents rs = (l.filter (AskedFor cfg)).map UserAct.event ∧
      s'.inBuf ++ s'.input = v.sent r := by
  have hv : v.mode 1 = true := by rw [← hkey]; exact hm.keys
  have ef : ∀ l : List UserAct, l.filter (heardBy v) = l.filter (AskedFor cfg) :=
    fun l => List.filter_congr fun a _ => heard_asked hm a
  have hp' : ∀ a ∈ acts.filter (heardBy v), a.Possible := fun a ha => hp a (List.mem_filter.mp ha).1
  have hs' := heard_sends hm (acts := acts)
  obtain ⟨i, -, g2, g3⟩ := C29_pieces_partial env _ (xterm_table hseq) ops hops st st' s s' rs h
    ((acts.filter (heardBy v)).map actPiece) (by rw [stream_acts hv hp' hs', sent_heard]; exact hin)
    (parsed_acts hv hp' hs' (by rw [ef]; exact he))
    fun o1 o2 rs1 st1 s1 h1 h2 => unsplit_unbroken hv hp' hs' (unbroken_heard (hcut o1 o2 rs1 st1 s1 h1 h2))
  obtain ⟨l, r, e1, e2, e3⟩ := filter_split (heardBy v) acts i
  refine ⟨l, r, e1, ?_, ?_⟩
  · rw [g2, ← List.map_take, ← e2, events_acts fun a ha => hp a ?_, ef]
    rw [e1]; exact List.mem_append_left _ (List.mem_filter.mp ha).1
  · rw [g3, ← List.map_drop, ← e3, stream_acts hv (fun a ha => hp' a ?_) (fun a ha => hs' a ?_), sent_heard]
    · rw [e3] at ha; exact List.mem_of_mem_drop ha
    · rw [e3] at ha; exact List.mem_of_mem_drop ha

/-! ## Why the conditions are there -/

/-- **C72.** Escape is never mistaken if it is not followed directly by a typed `[` or `O`. -/
theorem C72_escape_apart {cfg : PrepareConfig} (hkey : cfg.enableKeypad = true) {v : Vt}
    (hm : v.Modes ⟨cfg.enableKeypad, cfg.enableMouse, cfg.enableMouse && cfg.alwaysTrackMotion⟩)
    {acts : List UserAct} (hp : ∀ a ∈ acts, a.Possible) (he : EscapeApart (acts.filter (AskedFor cfg))) :
    EscapeClear v (acts.filter (AskedFor cfg)) := by
  have hv : v.mode 1 = true := by rw [← hkey]; exact hm.keys
  have hs := heard_sends hm (acts := acts)
  rw [List.filter_congr (fun a _ => heard_asked hm a)] at hs
  exact escape_clear hv (fun a ha => hp a (List.mem_filter.mp ha).1) hs he

/-- **C72.** Escape, `O`, `A` are the same bytes as Up, so no program can tell them apart if they arrive
together: this is why Escape is to be apart. -/
theorem C72_escape_needed {v : Vt} (h : v.mode 1 = true) :
    v.sent [.key .escape, .key (.char 'O'), .key (.char 'A')] = v.sent [.key .up] := by
  simp only [Vt.sent, List.flatMap_cons, List.flatMap_nil, Vt.sends, h]
  rfl

/-- **C72.** Without `enable_keypad`, the program is told of three keys when the user presses Up: Escape,
`[` and `A`. -/
theorem C72_keypad_needed {env : REnv} (hseq : sequences xtermKeys xtermName = some env.seqs) {v : Vt}
    (h : v.mode 1 = false) {s : US} (hin : s.inBuf = v.sent [.key .up]) (t : Option Nat) :
    readMany env t 3 s =
      .ok [some (.key .escape), some (.key (.char '[')), some (.key (.char 'A'))] { s with inBuf := [] } := by
  have e : v.sent [.key .up] = stream [.char '\x1b', .char '[', .char 'A'] := by
    simp only [Vt.sent, List.flatMap_cons, List.flatMap_nil, Vt.sends, h]
    decide
  have none : ∀ k ∈ xtermSeqs, k.isPrefixOf [0x1b, 0x5b, 0x41] = false := by decide +kernel
  have h1 : Parsed (tableSpec xtermKeys xtermName) [.char '\x1b', .char '[', .char 'A'] := by
    refine ⟨fun k hk => ?_, fun k hk => ?_, fun k hk => ?_, trivial⟩
    · exfalso
      have := none k (xterm_known hk.1)
      rw [List.isPrefixOf_iff_prefix.mpr (show k <+: [0x1b, 0x5b, 0x41] from hk.2.2)] at this
      cases this
    · exact (no_begins (c := '[') (by decide) _ k hk).elim
    · exact (no_begins (c := 'A') (by decide) _ k hk).elim
  exact read_pieces (xterm_table hseq) t _ s (hin.trans e) h1

/-! ### Examples -/

/-- The table of an xterm. -/
def xtermU : REnv := { xtermR with seqs := (sequences xtermKeys xtermName).getD .new }

/-- What a user does: keys, among them Escape, and the mouse: a button with Ctrl held down, and
moving. -/
def demoActs : List UserAct :=
  [.key (.char 'é'), .key .up, .key .escape, .key (.f 5), .mouse (.press .left) ⟨3, 119⟩ ⟨false, true, false⟩,
   .mouse (.move none) ⟨3, 118⟩ ⟨false, false, false⟩, .key (.ctrl 'c'), .key .home]

/-- What an xterm sends for it with keypad and mouse on. -/
def demoSent : Bytes :=
  [0xc3, 0xa9] ++ 0x1b :: asc "OA" ++ [0x1b] ++ esc "15~" ++ esc "<16;120;4M" ++ esc "<35;119;4M" ++ [3] ++
    0x1b :: asc "OH"

/-- The input is read in two parts, the first ending inside a character. -/
def userUS : US :=
  { smallUS 0 with
    sched := List.replicate 7 (okStep 0) ++ readSteps 1 ++ readSteps 38
    input := demoSent }

/-- The calls of a history. -/
def opsIn : List LiveEv → List ScrOp
  | [] => []
  | .call op _ _ :: es => op :: opsIn es
  | .window _ :: es => opsIn es

/-- A history of calls is what the calls do. -/
theorem trace_of_vrun {u : UEnv} {crlf : Bool} {env : REnv} {x z : VLive} {es : List LiveEv}
    (h : VRun u crlf env x es z) : (∀ y, LiveEv.window y ∉ es) →
    (liveTrace u env (opsIn es) x.d x.s).map (·.2) = some (z.d, z.s) := by
  induction h with
  | done x => exact fun _ => rfl
  | call e l _ ih =>
    intro hw
    have ih := ih fun y hy => hw y (List.mem_cons_of_mem _ hy)
    obtain ⟨⟨rs, d2, s2⟩, h1, h2⟩ := Option.map_eq_some_iff.mp ih
    rw [opsIn, liveTrace, e]
    simp only [Option.bind_eq_bind, Option.bind_some]
    rw [h1]
    cases h2
    rfl
  | window => intro hw; exact (hw _ List.mem_cons_self).elim

/-- What `read_event` returns, called nine times: the first call finds half a character. -/
def userResults : List (URet × Bool) :=
  (.event none, true) :: demoActs.map fun a => (.event (some a.event), true)

/-- All hypotheses of C72 are met: the user's acts arrive in two reads, and all of them are reported. -/
example : ∃ scr s1 v1 y, VUsed userUS liveVt ∧ TakesAll userUS.w.os ∧ xtermU.w = xtermDB ∧ xtermU.xterm = true ∧
    sequences xtermKeys xtermName = some xtermU.seqs ∧ demoCfg.enableKeypad = true ∧
    devModes userUS.w.log = ⟨false, false, false⟩ ∧ liveVt.Modes ⟨false, false, false⟩ ∧
    screenNew xtermU demoCfg userUS = .ok scr s1 ∧ liveVt.Looks demoEnv true userUS s1 v1 ∧
    VRun demoEnv true xtermU ⟨scr.data, s1, v1⟩ (callsOf (List.replicate 9 (.readEvent none)) userResults) y ∧
    (∀ a ∈ demoActs, a.Possible) ∧ EscapeApart (demoActs.filter (AskedFor demoCfg)) ∧
    EscapeClear v1 (demoActs.filter (AskedFor demoCfg)) ∧
    s1.inBuf ++ s1.input = v1.sent demoActs ∧
    (∀ es1 es2 z, callsOf (List.replicate 9 (.readEvent none)) userResults = es1 ++ es2 →
      VRun demoEnv true xtermU ⟨scr.data, s1, v1⟩ es1 z → Unbroken v1 demoActs z.s.input) ∧
    inputEvents (callResults (callsOf (List.replicate 9 (.readEvent none)) userResults)) =
      demoActs.map UserAct.event := by
  have hseq : sequences xtermKeys xtermName = some xtermU.seqs := by
    obtain ⟨m, h1, -⟩ := C26_terminal_table xtermKeys xtermName
    show _ = some ((sequences xtermKeys xtermName).getD .new)
    rw [h1]; rfl
  obtain ⟨scr, s1, hnew, hf⟩ := okOf_any (r := screenNew xtermU demoCfg userUS)
    (f := fun x => decide (SizeKept userUS x.2 ∧ x.2.inBuf ++ x.2.input = demoSent ∧
      (liveTrace demoEnv xtermU (List.replicate 9 (.readEvent none)) x.1.data x.2).map Prod.fst = some userResults ∧
      (List.range 10).map (fun n => (liveTrace demoEnv xtermU (List.replicate n (.readEvent none)) x.1.data x.2).map
        fun y => y.2.2.input) = some demoSent :: some (demoSent.drop 1) :: List.replicate 8 (some []) ∧
      (liveVt.feed demoEnv true (newBytes userUS x.2)).sent demoActs = demoSent)) (by decide +kernel)
  obtain ⟨hk, hi, ht, hc, hse⟩ := of_decide_eq_true hf
  obtain ⟨⟨rs, d, s⟩, ht, hrs⟩ := Option.map_eq_some_iff.mp ht
  cases hrs
  have hg0 : GoodWindow userUS := by
    refine ⟨?_, ?_, ?_⟩
    · unfold ScreenSize GoodSize; decide
    · intro st hst z hz
      have : ∀ st ∈ userUS.sched, st.resize = none := by decide
      rw [this st hst] at hz; cases hz
    · decide
  have hg := (passed_new hnew).window (fun h => ((flushedK_screenNew xtermU demoCfg).ok hnew h).1) hg0
  obtain ⟨v2, hr⟩ := vlive_of_trace (crlf := true) (liveVt.feed demoEnv true (newBytes userUS s1)) hg ht
  have hu : VUsed userUS liveVt := by
    refine ⟨⟨[], userUS.w.os, ?_, rfl⟩, rfl, liveVt_ready, rfl, rfl, rfl⟩
    intro n hn
    have : ∀ r ∈ userUS.w.os, r = .all ∨ r = .eintr := by decide
    rcases this _ hn with h | h <;> cases h
  have hpos : ∀ a ∈ demoActs, a.Possible := by
    intro a ha
    simp only [demoActs, List.mem_cons, List.not_mem_nil, or_false] at ha
    rcases ha with rfl | rfl | rfl | rfl | rfl | rfl | rfl | rfl
    · show ¬ Control _; decide
    · trivial
    · trivial
    · show _ ∧ _; decide
    · exact ⟨by decide, by decide, trivial⟩
    · exact ⟨by decide, by decide, trivial⟩
    · exact ⟨by decide, by decide, by decide, by decide, by decide⟩
    · trivial
  have hap : EscapeApart (demoActs.filter (AskedFor demoCfg)) := by
    intro l c r e
    have e' : demoActs = l ++ .key .escape :: .key (.char c) :: r := e
    exfalso
    unfold demoActs at e'
    match l, e' with
    | [], e' => injection e' with e' _; injection e' with e'; cases e'
    | [_], e' => injection e' with _ e'; injection e' with e' _; injection e' with e'; cases e'
    | [_, _], e' =>
      injection e' with _ e'; injection e' with _ e'; injection e' with _ e'; injection e' with e' _
      injection e' with e'; cases e'
    | [_, _, _], e' =>
      injection e' with _ e'; injection e' with _ e'; injection e' with _ e'; injection e' with e' _
      injection e' with e'; cases e'
    | [_, _, _, _], e' =>
      injection e' with _ e'; injection e' with _ e'; injection e' with _ e'; injection e' with _ e'
      injection e' with e' _; cases e'
    | [_, _, _, _, _], e' =>
      injection e' with _ e'; injection e' with _ e'; injection e' with _ e'; injection e' with _ e'
      injection e' with _ e'; injection e' with e' _; cases e'
    | [_, _, _, _, _, _], e' =>
      injection e' with _ e'; injection e' with _ e'; injection e' with _ e'; injection e' with _ e'
      injection e' with _ e'; injection e' with _ e'; injection e' with e' _; injection e' with e'; cases e'
    | _ :: _ :: _ :: _ :: _ :: _ :: _ :: l, e' =>
      have := congrArg List.length e'
      simp only [List.length_cons, List.length_append, List.cons_append, List.length_nil] at this
      omega
  have hlo : liveVt.Looks demoEnv true userUS s1 (liveVt.feed demoEnv true (newBytes userUS s1)) :=
    ⟨fun _ => rfl, fun h => (h hk).elim⟩
  refine ⟨scr, s1, _, _, hu, hg0.2.2, rfl, rfl, hseq, rfl, rfl, ⟨rfl, rfl, rfl, rfl, rfl⟩, hnew, hlo, hr, hpos, hap,
    C72_escape_apart rfl (C72_modes demo_table (env := xtermU) rfl rfl hu hg0.2.2 rfl ⟨rfl, rfl, rfl, rfl, rfl⟩ hnew hlo
      (.done _)) hpos hap, hi.trans hse.symm, ?_, by decide +kernel⟩
  · intro es1 es2 z he h1
    have hw : ∀ y, LiveEv.window y ∉ es1 := by
      intro y hy
      have h2 : LiveEv.window y ∈ callsOf (List.replicate 9 (.readEvent none)) userResults := by
        rw [he]; exact List.mem_append_left _ hy
      exact absurd h2 (by
        unfold callsOf userResults demoActs
        simp)
    have h3 := trace_of_vrun h1 hw
    obtain ⟨n, hn, ho⟩ : ∃ n, n < 10 ∧ opsIn es1 = List.replicate n (.readEvent none) := by
      have e1 : opsIn (callsOf (List.replicate 9 (.readEvent none)) userResults) =
          List.replicate 9 (.readEvent none) := rfl
      have e2 : ∀ (a b : List LiveEv), opsIn (a ++ b) = opsIn a ++ opsIn b := by
        intro a b
        induction a with
        | nil => rfl
        | cons x a ih => cases x <;> simp [opsIn, ih]
      rw [he, e2] at e1
      obtain ⟨e3, e4⟩ := List.append_eq_replicate_iff.mp e1 |>.2 |> fun h => h
      refine ⟨(opsIn es1).length, ?_, e3⟩
      have := congrArg List.length e1
      rw [List.length_append, List.length_replicate] at this
      omega
    rw [ho] at h3
    obtain ⟨⟨rs', d', s'⟩, h4, h5⟩ := Option.map_eq_some_iff.mp h3
    have h6 := congrArg (fun l => l[n]?) hc
    have hn' : n ∈ [0, 1, 2, 3, 4, 5, 6, 7, 8, 9] := by
      simp only [List.mem_cons, List.not_mem_nil, or_false]; omega
    simp only [List.getElem?_map, List.getElem?_range hn, Option.map_some] at h6
    rw [h4] at h6
    have hs' : s' = z.s := by cases h5; rfl
    have h7 : z.s.input = demoSent ∨ z.s.input = demoSent.drop 1 ∨ z.s.input = [] := by
      rw [← hs']
      simp only [List.mem_cons, List.not_mem_nil, or_false] at hn'
      rcases hn' with rfl | rfl | rfl | rfl | rfl | rfl | rfl | rfl | rfl | rfl <;>
        simp only [List.replicate, List.getElem?_cons_zero, List.getElem?_cons_succ, Option.map_some,
          Option.some.injEq] at h6 <;> simp [h6]
    rcases h7 with h7 | h7 | h7
    · exact ⟨[], demoActs, rfl, Or.inl (h7.trans hse.symm)⟩
    · refine ⟨[], demoActs, rfl, Or.inr ⟨'é', demoActs.drop 1, [0xc3], [0xa9], rfl, by decide, ?_⟩⟩
      rw [h7, ← hse]
      rfl
    · exact ⟨demoActs, [], (List.append_nil _).symm, Or.inl h7⟩

/-- The same input all in the buffer of a terminal: the hypotheses of `C72_nothing_lost`, with an xterm that
has all modes set, and of `C72_keypad_needed`, with one that has none. -/
example : ({ liveVt with keypad := true, mode := fun _ => true } : Vt).Modes
      ⟨demoCfg.enableKeypad, demoCfg.enableMouse, demoCfg.enableMouse && demoCfg.alwaysTrackMotion⟩ ∧
    (demoUS demoSent [] []).inBuf = ({ liveVt with keypad := true, mode := fun _ => true } : Vt).sent demoActs ∧
    (readMany xtermU none 8 (demoUS demoSent [] []) |> okOf |>.map (·.1)) =
      some (demoActs.map fun a => some a.event) ∧
    liveVt.mode 1 = false ∧ (demoUS (esc "A") [] []).inBuf = liveVt.sent [.key .up] ∧
    (readMany xtermU none 3 (demoUS (esc "A") [] []) |> okOf |>.map (·.1)) =
      some [some (.key .escape), some (.key (.char '[')), some (.key (.char 'A'))] :=
  ⟨⟨rfl, rfl, rfl, rfl, rfl⟩, by decide +kernel, by decide +kernel, rfl, by decide +kernel, by decide +kernel⟩

/-- A `Terminal`: the hypotheses of `C72_terminal` on reads, for two calls that find everything in the
buffer. -/
example : ((runU xtermU [.readEvent none, .write (.writeStr [0x78]), .readEvent none] []
      (demoUS demoSent [] [])).map fun x => (inputEvents x.1, x.2.2.input)) =
    some ((demoActs.take 2).map UserAct.event, []) ∧
    Unbroken { liveVt with keypad := true, mode := fun _ => true } demoActs [] :=
  ⟨by decide +kernel, demoActs, [], (List.append_nil _).symm, Or.inl rfl⟩

end Mortal
