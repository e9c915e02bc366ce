import Verif.Lemmas.WinSession
import Verif.Props.WinMode

/-! # C52: a screen on a Windows console leaves the console as it was -/

namespace Mortal
open Spec

/-- **C52.** Opening a screen: a new screen buffer, of the size of the terminal's one, is visible and
used by the terminal; it shows blanks; text at the end of a line will not continue on the next one;
the terminal is prepared; nothing else of the console changes. -/
theorem C52_open (u : UEnv) (t : WTerm) (cfg : PrepareConfig) (s s' : WinSt) (x : WScreen) (d : SData)
    (c : Con) (D : List WEv) (hc : c.Sane t.inH) (h : winScreenNew t cfg s = .ok (x, d) s')
    (hl : s'.log = s.log ++ D) (hr : c.Runs u t.inH D) :
    ∃ c' o oz, c.play u t.inH D = some c' ∧ c'.active = s'.outH ∧ c.outs s'.outH = none ∧
      s'.outH ≠ t.inH ∧ c'.outs s'.outH = some o ∧ c.outs s.outH = some oz ∧
      o.glyph.size = oz.glyph.size ∧ d = SData.new oz.glyph.size ∧
      (∀ p, o.glyph.cell p = .narrow [' '] ()) ∧
      o.mode.getLsbD 1 = false ∧ o.mode.getLsbD 3 = false ∧
      (∀ j, j ≠ s'.outH → c'.outs j = c.outs j) ∧
      (∀ i < 32, c'.inMode.getLsbD i = preparedBit cfg c.inMode i) ∧
      c'.handlers = c.handlers + (if AsksCtrl cfg then 1 else 0) := by
  obtain ⟨c', e1, h1, h2, n, oa, oz, ⟨n0, n1, n2, n3⟩, hoa, hoz, e2, ⟨q, rfl⟩, e4⟩ :=
    (does_screenNew c s t cfg hc).ok s c (.refl c s) (x, d) s' D h hl hr
  have ho : s'.outH = n := e4.outH
  refine ⟨_, enteredOut oa oz.glyph.size, oz, e1, ho.symm, by rw [ho]; exact n3,
    by rw [ho]; exact n2, by rw [ho]; exact setOut_outs _ _ _, hoz, rfl, e2, ?_, ?_, ?_, ?_, ?_, ?_⟩
  · intro p
    exact ite_self _
  · simp [enteredOut, ENABLE_WRAP_AT_EOL_OUTPUT, DISABLE_NEWLINE_AUTO_RETURN]
  · simp [enteredOut, ENABLE_WRAP_AT_EOL_OUTPUT, DISABLE_NEWLINE_AUTO_RETURN]
  · intro j hj
    rw [ho] at hj
    show (if j = n then _ else _) = _
    rw [if_neg hj]
  · exact fun i hi => prepareMode_bit cfg _ i hi
  · show (if reports cfg then _ else _) = _
    by_cases ha : AsksCtrl cfg
    · rw [if_pos ((reports_iff cfg).mpr ha), if_pos ha]; rfl
    · rw [if_neg (fun e => ha ((reports_iff cfg).mp e)), if_neg ha]; rfl

/-- **C52.** The whole life of a screen: it is opened, its buffer is drawn on in any way whatever,
and it is dropped without a failure. Then the terminal's own buffer is visible again with the contents
it had, the screen's buffer is gone, the input mode is as before (apart from the extended-flags bit)
and the control handler is registered as often as before. -/
theorem C52_session (u : UEnv) (t : WTerm) (cfg : PrepareConfig) (s s1 s2 s3 : WinSt) (x : WScreen)
    (d : SData) (c c1 c2 : Con) (D1 D2 : List WEv) (hc : c.Sane t.inH) (hk : s.outH ≠ t.inH)
    (h1 : winScreenNew t cfg s = .ok (x, d) s1) (hl1 : s1.log = s.log ++ D1)
    (hr1 : c.Runs u t.inH D1) (hp1 : c.play u t.inH D1 = some c1)
    (hc2 : SameElse s1.outH c1 c2) (hs2 : s2.outH = s1.outH)
    (h2 : winScreenDrop t x s2 = .ok () s3) (hl2 : s3.log = s2.log ++ D2)
    (hr2 : c2.Runs u t.inH D2) (hn : NoFailure D2) :
    ∃ c3, c2.play u t.inH D2 = some c3 ∧ c3.active = s.outH ∧ s3.outH = s.outH ∧
      c3.inMode = c.inMode ||| 0x80 ∧ c3.handlers = c.handlers ∧
      c3.outs = fun j => if j = s.outH then (c.outs j).map (OutBuf.released t) else c.outs j := by
  obtain ⟨c1', e1, g1, g2, n, oa, oz, ⟨n0, n1, n2, n3⟩, hoa, hoz, e2, ⟨q, rfl⟩, e4⟩ :=
    (does_screenNew c s t cfg hc).ok s c (.refl c s) (x, d) s1 D1 h1 hl1 hr1
  rw [hp1] at e1; cases e1
  have ho : s1.outH = n := e4.outH
  have hx : x.old = s.outH := g1
  have hst : x.state = ⟨c.inMode, reports cfg⟩ := g2
  obtain ⟨c3, o, p3, k1, k2, k3, k4, q', rfl⟩ := winScreenDrop_ok h2 hl2 hr2 hn (by rw [hx]; exact hk)
  have hne : s.outH ≠ n := by rw [hx, hs2, ho] at k1; exact k1
  refine ⟨_, p3, hx, by rw [k3, hx], ?_, ?_, ?_⟩
  · show x.state.oldIn ||| _ = _
    rw [hst]; rfl
  · show (if x.state.clearHandler then c2.handlers - 1 else c2.handlers) = _
    rw [hst, hc2.handlers]
    show (if reports cfg then (if reports cfg then c.handlers + 1 else c.handlers) - 1 else
        (if reports cfg then c.handlers + 1 else c.handlers)) = _
    cases reports cfg <;> rfl
  · have houts : ∀ j, j ≠ n → c2.outs j = c.outs j := by
      intro j hj
      rw [hc2.outs j (by rw [ho]; exact hj)]
      show (if j = n then _ else _) = _
      rw [if_neg hj]
    funext j
    show (if j = x.old then _ else if j = s2.outH then none else c2.outs j) = _
    rw [hx] at k2 ⊢
    rw [houts _ hne] at k2
    by_cases hj : j = s.outH
    · rw [if_pos hj, if_pos hj, hj, k2]; rfl
    · rw [if_neg hj, if_neg hj, hs2, ho]
      by_cases hjn : j = n
      · rw [if_pos hjn, hjn, n3]
      · rw [if_neg hjn, houts j hjn]

/-- What `Drop for Terminal` cannot change. -/
theorem does_termDrop_keeps (u : UEnv) (k : Nat) (c0 : Con) (s0 : WinSt) (t : WTerm)
    (hk : s0.outH ≠ k) :
    Does u k (CAt c0 s0) (winTermDrop t)
      (fun _ c s => c.active = c0.active ∧ s.outH = s0.outH ∧
        ∀ j o, c0.outs j = some o → ∃ o', c.outs j = some o') (fun _ _ _ => False) := by
  rw [termDrop_eq]
  refine Does.ignore (E := fun _ c s => c.active = c0.active ∧ s.outH = s0.outH ∧
        ∀ j o, c0.outs j = some o → ∃ o', c.outs j = some o') ?_ (fun _ _ _ h => h)
  have key : ∀ {o : OutBuf} {c s}, CAt (c0.setOut s0.outH o) s0 c s → c.active = c0.active ∧
      s.outH = s0.outH ∧ ∀ j o, c0.outs j = some o → ∃ o', c.outs j = some o' := by
    rintro o c s ⟨⟨q, rfl⟩, h⟩
    refine ⟨rfl, h.outH, fun j o' ho' => ?_⟩
    show ∃ o'', (if j = s0.outH then _ else _) = some o''
    split
    · exact ⟨_, rfl⟩
    · exact ⟨_, ho'⟩
  have key0 : ∀ {c s}, CAt c0 s0 c s → c.active = c0.active ∧
      s.outH = s0.outH ∧ ∀ j o, c0.outs j = some o → ∃ o', c.outs j = some o' := by
    rintro c s ⟨⟨q, rfl⟩, h⟩
    exact ⟨rfl, h.outH, fun j o' ho' => ⟨_, ho'⟩⟩
  refine Does.mono (does_termDropBody c0 s0 t hk) (fun _ _ h => h) ?_ ?_
  · rintro _ c s ⟨o, -, h⟩; exact key h
  · rintro _ c s (h | ⟨o, h⟩)
    · exact key0 h
    · exact key h

/-- **C52, limit.** If restoring the terminal fails, the screen is not left at all: its buffer stays
visible (and is never closed), whatever happens afterwards; the user of the screen is not told. -/
theorem C52_failed_restore (u : UEnv) (t : WTerm) (x : WScreen) (s s1 s' : WinSt) (e : IoErr) (c : Con)
    (D : List WEv) (hk : s.outH ≠ t.inH) (hf : winRestore t x.state s = .err e s1)
    (h : winScreenDrop t x s = .ok () s') (hl : s'.log = s.log ++ D) (hr : c.Runs u t.inH D) :
    ∃ c', c.play u t.inH D = some c' ∧ c'.active = c.active ∧ s'.outH = s.outH ∧
      (∀ j o, c.outs j = some o → ∃ o', c'.outs j = some o') := by
  unfold winScreenDrop at h
  have h1 : SM.ignore (do winRestore t x.state; winExitScreen x.old) s = .ok () s1 := by
    simp only [SM.ignore, sm_bind, hf]
  simp only [sm_bind, h1] at h
  obtain ⟨D1, d1⟩ := (grows_restore t x.state s).2 e s1 hf
  obtain ⟨D2, d2⟩ := (grows_ignore (grows_termDropBody t) s1).1 () s' h
  have hD : D = D1 ++ D2 := by
    rw [d2, d1, List.append_assoc] at hl
    exact (List.append_cancel_left hl).symm
  subst hD
  obtain ⟨r1, r2⟩ := con_runs_append hr
  obtain ⟨c1, p1, g1⟩ := (does_restore c s t x.state).err s c (.refl c s) e s1 D1 hf d1 r1
  have g2 : c1.active = c.active ∧ s1.outH = s.outH ∧ c1.outs = c.outs := by
    rcases g1 with ⟨⟨q, rfl⟩, g⟩ | ⟨⟨q, rfl⟩, g⟩ <;> exact ⟨rfl, g.outH, rfl⟩
  obtain ⟨c2, p2, k1, k2, k3⟩ := (does_termDrop_keeps u t.inH c1 s1 t
    (by rw [g2.2.1]; exact hk)).ok s1 c1 (.refl _ _) () s' D2 h d2 (r2 c1 p1)
  refine ⟨c2, by rw [con_play_append, p1]; exact p2, k1.trans g2.1, k2.trans g2.2.1, ?_⟩
  intro j o ho
  exact k3 j o (by rw [g2.2.2]; exact ho)

/-- What the console of `demoCon` tells about its buffer. -/
def sessInfo : Info := ⟨⟨3, 2⟩, ⟨0, 0⟩, 7, ⟨0, 0, 2, 1⟩⟩

/-- Opening a screen, up to the input mode being read. -/
def sessEnter : List WEv :=
  [.call (.getInfo 2) (.info sessInfo), .call (.getInfo 2) (.info sessInfo),
    .call .create (.handle 3), .call (.setBufSize 3 ⟨3, 2⟩) .ok, .call (.setActive 3) .ok,
    .call (.getMode 3) (.mode 3), .call (.setMode 3 1) .ok, .call (.getMode 1) (.mode 0x1F7)]

/-- The answers to it. -/
def sessEnterOs : List ConStep :=
  [⟨[], .info sessInfo⟩, ⟨[], .info sessInfo⟩, ⟨[], .handle 3⟩, ⟨[], .ok⟩, ⟨[], .ok⟩, ⟨[], .mode 3⟩,
    ⟨[], .ok⟩, ⟨[], .mode 0x1F7⟩]

/-- The console after it. -/
def sessCon : Con :=
  { (demoCon.setOut 3 (enteredOut demoOut ⟨2, 3⟩)) with active := 3 }

theorem con_runs_of {u : UEnv} {k : Nat} {a b : List WEv} {c c' : Con} (h : c.Runs u k a)
    (hp : c.play u k a = some c') (h' : c'.Runs u k b) : c.Runs u k (a ++ b) := by
  induction a generalizing c with
  | nil => simp only [Con.play, Option.some.injEq] at hp; subst hp; exact h'
  | cons e l ih =>
    refine ⟨h.1, fun c1 h1 => ih (h.2 c1 h1) ?_⟩
    simpa only [Con.play, h1, Option.bind_some] using hp

theorem sessEnter_play : demoCon.play demoEnv 1 sessEnter = some sessCon := by
  show some _ = some _
  congr 1
  show Con.mk _ _ _ _ _ = Con.mk _ _ _ _ _
  congr 1
  funext j
  by_cases h3 : j = 3
  · subst h3; rfl
  · show (if j = 3 then _ else if j = 3 then _ else if j = 3 then _ else _) =
      (if j = 3 then _ else _)
    simp only [if_neg h3]

theorem sessEnter_runs : demoCon.Runs demoEnv 1 sessEnter := by
  have ht : demoOut.Tells sessInfo := by
    refine ⟨by decide +kernel, ⟨⟨0, 0⟩, by unfold InBounds; decide, by decide +kernel⟩, ?_, rfl, rfl⟩
    intro p hp; cases hp; decide +kernel
  refine runs_cons (c' := demoCon) (Or.inr ⟨demoOut, sessInfo, rfl, ht, rfl⟩) rfl ?_
  refine runs_cons (c' := demoCon) (Or.inr ⟨demoOut, sessInfo, rfl, ht, rfl⟩) rfl ?_
  refine runs_cons (Or.inr ⟨3, rfl, by decide, by decide, by decide, rfl, demoOut, rfl⟩) rfl ?_
  refine runs_cons (Or.inr ⟨rfl, _, rfl, by unfold RectIn; decide +kernel⟩) rfl ?_
  refine runs_cons (Or.inr ⟨rfl, _, rfl⟩) rfl ?_
  refine runs_cons (Or.inr (Or.inr ⟨by decide, _, rfl, rfl⟩)) rfl ?_
  refine runs_cons (Or.inr ⟨rfl, Or.inr ⟨_, rfl⟩⟩) rfl ?_
  exact runs_cons (Or.inr (Or.inl ⟨rfl, rfl⟩)) rfl trivial

theorem demoCon_sane : demoCon.Sane 1 where
  active := ⟨demoOut, rfl⟩
  invalid := rfl
  input := rfl
  small := by
    intro h o ho
    by_cases h2 : h = 2
    · subst h2; cases ho; decide
    · have : demoCon.outs h = none := if_neg h2
      rw [this] at ho; cases ho

/-- **C52.** When the last step of opening a screen fails, the property is false: the caller gets an
error and no screen, but the new buffer stays visible and the terminal's own one is hidden. -/
theorem C52_failed_open :
    ∃ s' c', winScreenNew demoTerm (winCfg .new false false)
        (demoSt (sessEnterOs ++ [⟨[], .fail⟩, ⟨[], .ok⟩, ⟨[], .ok⟩])) = .err .os s' ∧
      demoCon.Sane 1 ∧ demoCon.Runs demoEnv 1 s'.log ∧ demoCon.play demoEnv 1 s'.log = some c' ∧
      demoCon.active = 2 ∧ c'.active = 3 := by
  refine ⟨{ demoSt [] with
      outH := 3
      log := sessEnter ++ [.call (.setMode 1 0x1A8) .fail, .call (.setCursorInfo 3 25 true) .ok,
        .call (.setMode 3 3) .ok] },
    (sessCon.setOut 3 { enteredOut demoOut ⟨2, 3⟩ with shape := (25, true) }).setOut 3
      { enteredOut demoOut ⟨2, 3⟩ with shape := (25, true), mode := 3 }, by decide +kernel, demoCon_sane, ?_, ?_, rfl, ?_⟩
  · refine con_runs_of sessEnter_runs sessEnter_play ?_
    refine runs_cons (Or.inl rfl) rfl ?_
    refine runs_cons (Or.inr ⟨rfl, _, rfl⟩) rfl ?_
    exact runs_cons (Or.inr ⟨rfl, Or.inr ⟨_, rfl⟩⟩) rfl trivial
  · show demoCon.play demoEnv 1 (sessEnter ++ _) = _
    rw [con_play_append, sessEnter_play]; rfl
  · rfl

/-- A screen is opened and dropped on that console. -/
example : ∃ s1 s3 x d c1 D2,
    winScreenNew demoTerm (winCfg .new false false) (demoSt (sessEnterOs ++
      [⟨[], .ok⟩, ⟨[], .ok⟩, ⟨[], .ok⟩, ⟨[], .ok⟩, ⟨[], .ok⟩, ⟨[], .ok⟩])) = .ok (x, d) s1 ∧
    demoCon.Runs demoEnv 1 s1.log ∧ demoCon.play demoEnv 1 s1.log = some c1 ∧
    winScreenDrop demoTerm x s1 = .ok () s3 ∧ s3.log = s1.log ++ D2 ∧ c1.Runs demoEnv 1 D2 ∧
    NoFailure D2 ∧ D2.length = 5 := by
  refine ⟨{ demoSt [⟨[], .ok⟩, ⟨[], .ok⟩, ⟨[], .ok⟩, ⟨[], .ok⟩, ⟨[], .ok⟩] with
      outH := 3
      log := sessEnter ++ [.call (.setMode 1 0x1A8) .ok] },
    { demoSt [] with
      log := sessEnter ++ [.call (.setMode 1 0x1A8) .ok, .call (.setMode 1 0x1F7) .ok,
        .call (.setActive 2) .ok, .call (.close 3) .ok, .call (.setCursorInfo 2 25 true) .ok,
        .call (.setMode 2 3) .ok] }, ⟨⟨0x1F7, false⟩, 2⟩, SData.new ⟨2, 3⟩,
    { sessCon with inMode := 0x1A8 },
    [.call (.setMode 1 0x1F7) .ok,
        .call (.setActive 2) .ok, .call (.close 3) .ok, .call (.setCursorInfo 2 25 true) .ok,
        .call (.setMode 2 3) .ok], by decide +kernel, ?_, ?_, by decide +kernel, ?_, ?_, ?_, rfl⟩
  · refine con_runs_of sessEnter_runs sessEnter_play ?_
    exact runs_cons (Or.inr ⟨rfl, Or.inl rfl⟩) rfl trivial
  · show demoCon.play demoEnv 1 (sessEnter ++ _) = _
    rw [con_play_append, sessEnter_play]; rfl
  · rfl
  · refine runs_cons (Or.inr ⟨rfl, Or.inl rfl⟩) rfl ?_
    refine runs_cons (Or.inr ⟨rfl, demoOut, rfl⟩) rfl ?_
    refine runs_cons (Or.inr ⟨rfl, _, rfl⟩) rfl ?_
    refine runs_cons (Or.inr ⟨rfl, demoOut, rfl⟩) rfl ?_
    exact runs_cons (Or.inr ⟨rfl, Or.inr ⟨_, rfl⟩⟩) rfl trivial
  · intro c a h
    simp only [List.mem_cons, WEv.call.injEq, List.not_mem_nil, or_false] at h
    rcases h with ⟨rfl, rfl⟩ | ⟨rfl, rfl⟩ | ⟨rfl, rfl⟩ | ⟨rfl, rfl⟩ | ⟨rfl, rfl⟩ <;>
      exact ⟨by decide, by intro h; cases h⟩

end Mortal
