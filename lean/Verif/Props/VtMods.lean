import Verif.Lemmas.VtMods

/-!
# What the program is told of keys with modifiers at an xterm (C75)
-/

namespace Mortal
open Spec

/-- What is sent is nothing only if there is nothing to be told. -/
theorem none_sent {v : Vt} (hv : v.mode 1 = true) {r : List UserAct} (hp : ∀ a ∈ r, a.Possible)
    (hs : ∀ a ∈ r, Sends v a) (h : v.sent r = []) : r = [] := by
  cases r with
  | nil => rfl
  | cons a r =>
    exfalso
    have e : v.sent (a :: r) = v.sends a ++ v.sent r := by simp [Vt.sent]
    rw [e, List.append_eq_nil_iff, ← actPiece_bytes hv (hp a List.mem_cons_self) (hs a List.mem_cons_self)] at h
    exact act_bytes_ne (hp a List.mem_cons_self) h.1

/-- From the typed keys to the keys with modifiers. -/
theorem told_part {cfg : PrepareConfig} (hkey : cfg.enableKeypad = true) {v : Vt}
    (hm : v.Modes ⟨cfg.enableKeypad, cfg.enableMouse, cfg.enableMouse && cfg.alwaysTrackMotion⟩)
    {acts : List KeyAct} (hp : ∀ x ∈ acts, x.Possible) {l r : List UserAct} {evs : List Event} {rest : Bytes}
    (h1 : acts.flatMap KeyAct.typed = l ++ r) (h2 : evs = (l.filter (AskedFor cfg)).map UserAct.event)
    (h3 : rest = v.sent r) :
    evs <+: (acts.filter (AskedK cfg)).flatMap KeyAct.told ∧
    (rest = [] → evs = (acts.filter (AskedK cfg)).flatMap KeyAct.told) := by
  have hv : v.mode 1 = true := by rw [← hkey]; exact hm.keys
  have e : (acts.filter (AskedK cfg)).flatMap KeyAct.told = evs ++ (r.filter (AskedFor cfg)).map UserAct.event := by
    rw [← told_typed, ← filter_typed, h1, List.filter_append, List.map_append, h2]
  refine ⟨e ▸ List.prefix_append _ _, fun hr => ?_⟩
  have hs := heard_sends hm (acts := r)
  have hr' : v.sent (r.filter (heardBy v)) = [] := by rw [sent_heard, ← h3, hr]
  have := none_sent hv (fun a ha => possible_typed hp a (by
    rw [h1]; exact List.mem_append_right _ (List.mem_filter.mp ha).1)) hs hr'
  rw [List.filter_congr (fun a _ => heard_asked hm a)] at this
  rw [e, this]; simp

theorem typed_clear {cfg : PrepareConfig} (hkey : cfg.enableKeypad = true) {v : Vt}
    (hm : v.Modes ⟨cfg.enableKeypad, cfg.enableMouse, cfg.enableMouse && cfg.alwaysTrackMotion⟩)
    {acts : List KeyAct} (hp : ∀ x ∈ acts, x.Possible) (he : EscapeApartK (acts.filter (AskedK cfg))) :
    EscapeClear v ((acts.flatMap KeyAct.typed).filter (AskedFor cfg)) := by
  have hv : v.mode 1 = true := by rw [← hkey]; exact hm.keys
  rw [filter_typed]
  refine escape_typed hv (fun x hx => hp x (List.mem_filter.mp hx).1) ?_ he
  rw [← filter_typed, ← List.filter_congr (fun a _ => heard_asked hm a)]
  exact heard_sends hm

/-- **C75.** As C72, but the user also holds Shift, Alt or Ctrl down while pressing keys. A key with
modifiers is told as Escape followed by the characters of what the xterm sends for it, one by one;
everything else is told as it is; nothing is lost, and nothing else is told. The reads may end anywhere
inside what is sent for a key with modifiers. -/
theorem C75_told {u : UEnv} (hT : TableOk u) {crlf : Bool} {env : REnv} (hx : env.w = xtermDB)
    (hn : env.xterm = true) (hseq : sequences xtermKeys xtermName = some env.seqs)
    {cfg : PrepareConfig} (hkey : cfg.enableKeypad = true) {s0 s1 : US} {scr : ScreenU} {v0 v1 : Vt}
    (hu : VUsed s0 v0) (hw : TakesAll s0.w.os)
    (hlog : devModes s0.w.log = ⟨false, false, false⟩) (hoff : v0.Modes ⟨false, false, false⟩)
    (hnew : screenNew env cfg s0 = .ok scr s1) (hl : v0.Looks u crlf s0 s1 v1)
    {es : List LiveEv} {y : VLive} (hrun : VRun u crlf env ⟨scr.data, s1, v1⟩ es y)
    (hraw : ∀ n t r k, LiveEv.call (.readRaw n t) r k ∉ es)
    {acts : List KeyAct} (hp : ∀ x ∈ acts, x.Possible) (he : EscapeApartK (acts.filter (AskedK cfg)))
    (hin : s1.inBuf ++ s1.input = acts.flatMap v1.sendsHeld)
    (hcut : ∀ es1 es2 z, es = es1 ++ es2 → VRun u crlf env ⟨scr.data, s1, v1⟩ es1 z →
      Unbroken v1 (acts.flatMap KeyAct.typed) z.s.input) :
    inputEvents (callResults es) <+: (acts.filter (AskedK cfg)).flatMap KeyAct.told ∧
    (y.s.inBuf ++ y.s.input = [] →
      inputEvents (callResults es) = (acts.filter (AskedK cfg)).flatMap KeyAct.told) := by
  have hm := C72_modes hT hx hn hu hw hlog hoff hnew hl (.done _)
  obtain ⟨l, r, h1, h2, h3⟩ := C72_events hT hx hn hseq hkey hu hw hlog hoff hnew hl hrun hraw
    (possible_typed hp) (typed_clear hkey hm hp he) (by rw [sent_typed]; exact hin) hcut
  exact told_part hkey hm hp h1 h2 h3

/-- **C75.** The same for a program that uses a `Terminal` instead of a screen, as long as the modes are
those: whatever it calls, except `read_raw`. -/
theorem C75_terminal {env : REnv} (hseq : sequences xtermKeys xtermName = some env.seqs)
    {cfg : PrepareConfig} (hkey : cfg.enableKeypad = true) {v : Vt}
    (hm : v.Modes ⟨cfg.enableKeypad, cfg.enableMouse, cfg.enableMouse && cfg.alwaysTrackMotion⟩)
    (ops : List UOp) (hops : ∀ n t, UOp.readRaw n t ∉ ops) (st st' : List PrepareState) (s s' : US)
    (rs : List URet) (h : runU env ops st s = some (rs, st', s'))
    {acts : List KeyAct} (hp : ∀ x ∈ acts, x.Possible) (he : EscapeApartK (acts.filter (AskedK cfg)))
    (hin : s.inBuf ++ s.input = acts.flatMap v.sendsHeld)
    (hcut : ∀ ops1 ops2 rs1 st1 s1, ops = ops1 ++ ops2 → runU env ops1 st s = some (rs1, st1, s1) →
      Unbroken v (acts.flatMap KeyAct.typed) s1.input) :
    inputEvents rs <+: (acts.filter (AskedK cfg)).flatMap KeyAct.told ∧
    (s'.inBuf ++ s'.input = [] → inputEvents rs = (acts.filter (AskedK cfg)).flatMap KeyAct.told) := by
  obtain ⟨l, r, h1, h2, h3⟩ := C72_terminal hseq hkey hm ops hops st st' s s' rs h (possible_typed hp)
    (typed_clear hkey hm hp he) (by rw [sent_typed]; exact hin) hcut
  exact told_part hkey hm hp h1 h2 h3

/-- **C75.** And all of it is told once it has arrived: so many calls of `read_event` return it. -/
theorem C75_nothing_lost {env : REnv} (hseq : sequences xtermKeys xtermName = some env.seqs)
    {cfg : PrepareConfig} (hkey : cfg.enableKeypad = true) {v : Vt} {s : US}
    (hm : v.Modes ⟨cfg.enableKeypad, cfg.enableMouse, cfg.enableMouse && cfg.alwaysTrackMotion⟩)
    {acts : List KeyAct} (hp : ∀ x ∈ acts, x.Possible) (he : EscapeApartK (acts.filter (AskedK cfg)))
    (hin : s.inBuf = acts.flatMap v.sendsHeld) (t : Option Nat) :
    readMany env t ((acts.filter (AskedK cfg)).flatMap KeyAct.told).length s =
      .ok (((acts.filter (AskedK cfg)).flatMap KeyAct.told).map some) { s with inBuf := [] } := by
  have h := C72_nothing_lost hseq hkey hm (possible_typed hp) (typed_clear hkey hm hp he)
    (by rw [sent_typed]; exact hin) t
  rw [filter_typed] at h
  rw [← told_typed, List.length_map, List.map_map, h]
  rfl

/-- **C75.** No two keys with different modifiers are told in the same way, and none as an unmodified
key: the program can tell them apart by what follows the Escape. -/
theorem C75_told_apart {k k' : Key} {m m' : ModifierState} (h : (KeyAct.held k m).Possible)
    (h' : (KeyAct.held k' m').Possible) (e : (KeyAct.held k m).told = (KeyAct.held k' m').told) : k = k' ∧ m = m' := by
  have et : heldText k m = heldText k' m' := by
    injection e with _ e
    exact (List.map_inj_right (fun a b hab => by injection hab with hab; injection hab)).mp e
  have tab : ∀ k ∈ heldKeys, ∀ m ∈ allMods, ∀ k' ∈ heldKeys, ∀ m' ∈ allMods, heldText k m = heldText k' m' →
      k = k' ∧ (k = .tab ∨ m = m') := by decide +kernel
  have two : ∀ k ∈ heldKeys, ∀ m ∈ allMods, (heldText k m).length ≠ 1 := by decide +kernel
  rcases held_cases h with a | ⟨c, rfl, -⟩ <;> rcases held_cases h' with b | ⟨c', rfl, -⟩
  · obtain ⟨h1, h2⟩ := tab k a m (mem_allMods m) k' b m' (mem_allMods m') et
    refine ⟨h1, ?_⟩
    rcases h2 with rfl | h2
    · subst h1; exact Eq.trans h h'.symm
    · exact h2
  · exact (two k a m (mem_allMods m) (by rw [et]; rfl)).elim
  · exact (two k' b m' (mem_allMods m') (by rw [← et]; rfl)).elim
  · have : [c] = [c'] := et
    injection this with this
    exact ⟨by rw [this], h.1.trans h'.1.symm⟩

/-! ### Examples -/

/-- Ctrl-Up, `x`, Shift-F5, Alt-`é`, Escape and Shift-Tab. -/
def heldActs : List KeyAct :=
  [.held .up { ctrl := true }, .act (.key (.char 'x')), .held (.f 5) { shift := true }, .held (.char 'é') { alt := true },
   .act (.key .escape), .held .tab { shift := true }]

/-- They can be pressed; this is what is sent, and what is told. -/
example : (∀ x ∈ heldActs, x.Possible) ∧ EscapeApartK (heldActs.filter (AskedK demoCfg)) ∧
    (∀ v : Vt, v.mode 1 = true → heldActs.flatMap v.sendsHeld =
      esc "1;5A" ++ asc "x" ++ esc "15;2~" ++ [0x1b, 0xc3, 0xa9] ++ [0x1b] ++ esc "Z") ∧
    (heldActs.filter (AskedK demoCfg)).flatMap KeyAct.told =
      [Key.escape, .char '[', .char '1', .char ';', .char '5', .char 'A', .char 'x', .escape, .char '[', .char '1',
        .char '5', .char ';', .char '2', .char '~', .escape, .char 'é', .escape, .escape, .char '[', .char 'Z'].map
        Event.key := by
  refine ⟨?_, ?_, fun v hv => ?_, by decide +kernel⟩
  · intro x hx
    simp only [heldActs, List.mem_cons, List.not_mem_nil, or_false] at hx
    rcases hx with rfl | rfl | rfl | rfl | rfl | rfl
    · show _ ≠ _; decide
    · show ¬ Control _; decide
    · show _ ∧ _ ∧ _ ≠ _; decide
    · show _ = _ ∧ ¬ Control _ ∧ _ ≠ _ ∧ _ ≠ _; decide
    · trivial
    · rfl
  · intro l c r e
    have e' : heldActs = l ++ .act (.key .escape) :: .act (.key (.char c)) :: r := e
    exfalso
    have h : ∀ n, n < 6 → heldActs[n]? = some (.act (.key .escape)) → heldActs[n + 1]? = some (.held .tab { shift := true }) := by
      decide
    have hl : l.length < 6 := by
      have := congrArg List.length e'
      simp only [heldActs, List.length_append, List.length_cons, List.length_nil] at this
      omega
    have g := h l.length hl (by rw [e']; simp)
    rw [e', List.getElem?_append_right (by omega)] at g
    simp at g
  · have e : heldActs.flatMap v.sendsHeld = v.sent (heldActs.flatMap KeyAct.typed) := (sent_typed v heldActs).symm
    rw [e]
    have : ∀ a ∈ heldActs.flatMap KeyAct.typed, v.sends a = xtermKeyBytes true (match a with | .key k => k | _ => .tab) := by
      intro a ha
      have hk : ∀ a ∈ heldActs.flatMap KeyAct.typed, ∃ k, a = .key k := by
        intro a ha
        obtain ⟨x, hx, ha⟩ := List.mem_flatMap.mp ha
        simp only [heldActs, List.mem_cons, List.not_mem_nil, or_false] at hx
        rcases hx with rfl | rfl | rfl | rfl | rfl | rfl <;>
          simp only [KeyAct.typed, List.mem_cons, List.not_mem_nil, or_false, List.mem_map] at ha
        all_goals
          first
          | exact ⟨_, ha⟩
          | (rcases ha with rfl | ⟨c, -, rfl⟩ <;> exact ⟨_, rfl⟩)
      obtain ⟨k, rfl⟩ := hk a ha
      show xtermKeyBytes (v.mode 1) k = _
      rw [hv]
    unfold Vt.sent
    rw [List.flatMap_def, List.map_congr_left this]
    decide +kernel

/-- The modes of the configuration, and all of it in the input: the hypotheses of `C75_nothing_lost` are
met. -/
example : ∃ (v : Vt) (s : US), sequences xtermKeys xtermName = some xtermU.seqs ∧ demoCfg.enableKeypad = true ∧
    v.Modes ⟨demoCfg.enableKeypad, demoCfg.enableMouse, demoCfg.enableMouse && demoCfg.alwaysTrackMotion⟩ ∧
    s.inBuf = heldActs.flatMap v.sendsHeld := by
  have hseq : sequences xtermKeys xtermName = some xtermU.seqs := by
    obtain ⟨m, h1, -⟩ := C26_terminal_table xtermKeys xtermName
    show _ = some ((sequences xtermKeys xtermName).getD .new)
    rw [h1]; rfl
  refine ⟨{ liveVt with keypad := true, mode := fun n => decide (n = 1 ∨ n = 1006 ∨ n = 1002 ∨ n = 1003) },
    { userUS with inBuf := _ }, hseq, rfl, ⟨rfl, rfl, rfl, rfl, rfl⟩, rfl⟩

end Mortal
