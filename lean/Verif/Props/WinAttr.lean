import Verif.Lemmas.WinAttr
import Verif.Spec.WinMode

/-! # C53: the attributes a Windows terminal believes to be in effect are in effect -/

namespace Mortal
open Spec

/-- **C53.** If the attributes the terminal keeps are in effect, then after any successful sequence of
attribute calls the attributes asked for are in effect (whatever else happens in the meantime), they
are the ones the terminal keeps, and nothing else of the console has changed. -/
theorem C53_in_effect (u : UEnv) (k : Nat) (t : WTerm) (ops : List AttrOp) (s s' : WinSt) (c : Con)
    (D : List WEv) (hi : InEffect t c s.outH s.theme) (h : runAttrs t ops s = .ok () s')
    (hl : s'.log = s.log ++ D) (hr : c.Runs u k D) :
    (∃ th, Become s.theme ops th) ∧
    ∃ c', c.play u k D = some c' ∧ OnlyWord s.outH c c' ∧ s'.outH = s.outH ∧
      ∀ th, Become s.theme ops th → s'.theme = th ∧ InEffect t c' s.outH th := by
  obtain ⟨o, ho, hw⟩ := inEffect_iff.mp hi
  obtain ⟨c', e1, ⟨q, rfl⟩, e2⟩ := (does_runAttrs t ops c s o ho hw).ok s c (.refl c s) () s' D h hl hr
  refine ⟨⟨_, become_foldl ops s.theme⟩, _, e1, onlyWord_set ho _ q, e2.outH, fun th hb => ?_⟩
  rw [become_unique hb]
  exact ⟨e2.theme, inEffect_iff.mpr ⟨_, setOut_outs _ _ _, rfl⟩⟩

/-- **C53.** If a call fails, the attributes in effect are the ones before that call. (But the ones
the terminal keeps are those asked for: see `C53_not_retried`.) -/
theorem C53_failed (u : UEnv) (k : Nat) (t : WTerm) (ops : List AttrOp) (s s' : WinSt) (c : Con)
    (D : List WEv) (e : IoErr) (hi : InEffect t c s.outH s.theme) (h : runAttrs t ops s = .err e s')
    (hl : s'.log = s.log ++ D) (hr : c.Runs u k D) :
    ∃ c' a op b, c.play u k D = some c' ∧ OnlyWord s.outH c c' ∧ ops = a ++ op :: b ∧
      ∀ th, Become s.theme a th → InEffect t c' s.outH th ∧ op.Makes th s'.theme := by
  obtain ⟨o, ho, hw⟩ := inEffect_iff.mp hi
  obtain ⟨c', e1, a, op, b, e2, ⟨q, rfl⟩, e3⟩ :=
    (does_runAttrs t ops c s o ho hw).err s c (.refl c s) e s' D h hl hr
  refine ⟨_, a, op, b, e1, onlyWord_set ho _ q, e2, fun th hb => ?_⟩
  rw [become_unique hb]
  refine ⟨inEffect_iff.mpr ⟨_, setOut_outs _ _ _, rfl⟩, ?_⟩
  rw [e3.theme]
  exact want_makes _ op

/-- **C53.** A new terminal keeps no attributes, and none are in effect: characters look as the
console makes them look by default. -/
theorem C53_new (u : UEnv) (k : Nat) (out : Nat) (s s' : WinSt) (t : WTerm) (c : Con) (D : List WEv)
    (h : winNew out s = .ok t s') (hl : s'.log = s.log ++ D) (hr : c.Runs u k D)
    (hk : s'.outH ≠ k) :
    ∃ c', c.play u k D = some c' ∧ s'.theme = ⟨none, none, .empty⟩ ∧ InEffect t c' s'.outH s'.theme := by
  obtain ⟨c', e1, e2, e3⟩ := (does_new c s out).ok s c (.refl c s) t s' D h hl hr
  obtain ⟨o, m, q, h1, h2, h3, rfl⟩ := e3 hk
  refine ⟨_, e1, e2, inEffect_iff.mpr ⟨_, setOut_outs _ _ _, ?_⟩⟩
  rw [e2, themeWord_plain, h3]

/-- **C53.** The property is false after a failure: a call that failed is not made again when
repeated; it reports success without asking anything of the console. -/
theorem C53_not_retried (t : WTerm) (op : AttrOp) (s s' : WinSt) (e : IoErr)
    (h : op.run t s = .err e s') : op.run t s' = .ok () s' := by
  rw [attrOp_eq] at h ⊢
  have ht : s'.theme = AttrOp.want s.theme op := by
    unfold winSetAttributes at h
    simp only [sm_bind, sm_get] at h
    split at h
    · simp only [sm_bind, sm_modify] at h
      unfold updateAttrs boolCall at h
      simp only [sm_bind, sm_get] at h
      cases hc : conCall (.setAttr s.outH (attrWord t.defAttrs (AttrOp.want s.theme op).fg
          (AttrOp.want s.theme op).bg (AttrOp.want s.theme op).style))
          { s with theme := AttrOp.want s.theme op } with
      | stop w => rw [hc] at h; cases h
      | err e s1 => exact absurd hc conCall_not_err
      | ok a s1 =>
        rw [hc] at h
        obtain ⟨-, -, -, h3, -⟩ := conCall_ok hc
        cases a <;> cases h
        exact h3.theme
    · cases h
  rw [ht, want_idem]
  unfold winSetAttributes
  simp only [sm_bind, sm_get]
  rw [if_neg (by rw [ht]; exact not_not_intro rfl)]
  rfl

/-- Setting a foreground colour on the console of `demoCon`, with the call refused. -/
example : ∃ s', AttrOp.run demoTerm (.fg (some .red)) (demoSt [{ ans := .fail }]) = .err .os s' ∧
    s'.theme.fg = some .red ∧ s'.log = [.call (.setAttr 2 4) .fail] ∧
    AttrOp.run demoTerm (.fg (some .red)) s' = .ok () s' ∧
    InEffect demoTerm demoCon 2 ⟨none, none, .empty⟩ ∧
    ¬ InEffect demoTerm demoCon 2 s'.theme := by
  refine ⟨{ demoSt [] with theme := ⟨some .red, none, .empty⟩, log := [.call (.setAttr 2 4) .fail] },
    by decide +kernel, rfl, rfl, by decide +kernel, ⟨demoOut, rfl, by decide +kernel⟩, ?_⟩
  rintro ⟨o, h1, h2⟩
  cases h1
  exact absurd h2 (by decide +kernel)

/-- Red on the default, then bold, then black background. -/
example : ∃ s', runAttrs demoTerm [.fg (some .red), .add .BOLD, .bg (some .black), .add .BOLD]
      (demoSt [{ ans := .ok }, { haps := [.ctrl 0 true], ans := .ok }, { ans := .ok }]) = .ok () s' ∧
    s'.theme = ⟨some .red, some .black, .BOLD⟩ ∧ InEffect demoTerm demoCon 2 (demoSt []).theme := by
  refine ⟨{ demoSt [] with
      theme := ⟨some .red, some .black, .BOLD⟩
      log := [.call (.setAttr 2 4) .ok, .ctrl 0 false false, .call (.setAttr 2 12) .ok,
        .call (.setAttr 2 12) .ok] }, by decide +kernel, rfl, ⟨demoOut, rfl, by decide +kernel⟩⟩

end Mortal
