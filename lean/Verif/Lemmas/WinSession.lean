import Verif.Lemmas.WinAttr
import Verif.Spec.WinSession

/-! # Opening and closing a screen on a Windows console -/

namespace Mortal
open Spec

variable {u : UEnv} {k : Nat}

/-! ## Errors come from refused calls -/

/-- An error is the result of a call the console refused. -/
def Fails {α : Type} (m : WM α) : Prop :=
  ∀ s e s', m s = .err e s' → ∃ D c, s'.log = s.log ++ D ++ [.call c .fail]

theorem Fails.bind {α β : Type} {m : WM α} {f : α → WM β} (hg : Grows m) (h : Fails m)
    (hf : ∀ a, Fails (f a)) : Fails (m >>= f) := by
  intro s e s' he
  simp only [sm_bind] at he
  cases hm : m s with
  | stop w => rw [hm] at he; cases he
  | err e1 s1 => rw [hm] at he; cases he; exact h s _ _ hm
  | ok a s1 =>
    rw [hm] at he; dsimp only at he
    obtain ⟨D, d⟩ := (hg s).1 a s1 hm
    obtain ⟨D', c, d'⟩ := hf a s1 e s' he
    exact ⟨D ++ D', c, by rw [d', d]; simp only [List.append_assoc]⟩

theorem Fails.pure {α : Type} (a : α) : Fails (pure a : WM α) := by
  intro s e s' h; cases h

theorem Fails.get : Fails (SM.get : WM WinSt) := by
  intro s e s' h; cases h

theorem Fails.modify (f : WinSt → WinSt) : Fails (SM.modify f) := by
  intro s e s' h; cases h

theorem Fails.when {p : Prop} [Decidable p] {m : WM Unit} (h : Fails m) : Fails (SM.when p m) := by
  unfold SM.when
  split
  · exact h
  · exact Fails.pure ()

theorem Fails.boolCall (c : ConCall) : Fails (Mortal.boolCall c) := by
  intro s e s' h
  unfold Mortal.boolCall at h
  simp only [sm_bind] at h
  cases hc : conCall c s with
  | stop w => rw [hc] at h; cases h
  | err e1 s1 => exact absurd hc conCall_not_err
  | ok a s1 =>
    rw [hc] at h
    obtain ⟨evs, -, h2, -⟩ := conCall_ok hc
    cases a <;> cases h
    exact ⟨evs, c, h2⟩

theorem grows_when {p : Prop} [Decidable p] {m : WM Unit} (h : Grows m) : Grows (SM.when p m) := by
  unfold SM.when
  split
  · exact h
  · exact Grows.pure ()

theorem grows_restore (t : WTerm) (p : WinPrepared) : Grows (winRestore t p) :=
  Grows.bind (grows_when (grows_boolCall _)) fun _ => grows_boolCall _

theorem fails_restore (t : WTerm) (p : WinPrepared) : Fails (winRestore t p) :=
  Fails.bind (grows_when (grows_boolCall _)) (.when (.boolCall _)) fun _ => .boolCall _

theorem grows_exit (old : Nat) : Grows (winExitScreen old) :=
  Grows.bind (grows_boolCall _) fun _ => Grows.bind grows_get fun _ =>
    Grows.bind (grows_modify (fun _ => rfl)) fun _ => grows_boolCall _

theorem fails_exit (old : Nat) : Fails (winExitScreen old) :=
  Fails.bind (grows_boolCall _) (.boolCall _) fun _ => Fails.bind grows_get .get fun _ =>
    Fails.bind (grows_modify (fun _ => rfl)) (.modify _) fun _ => .boolCall _

theorem grows_cursorMode (m : CursorMode) : Grows (winCursorMode m) := by
  unfold winCursorMode
  cases m <;> exact Grows.bind grows_get fun _ => grows_boolCall _

theorem fails_cursorMode (m : CursorMode) : Fails (winCursorMode m) := by
  unfold winCursorMode
  cases m <;> exact Fails.bind grows_get .get fun _ => .boolCall _

/-- The part of `Drop for Terminal` that may fail. -/
def termDropBody (t : WTerm) : WM Unit := do
  winCursorMode .normal
  setConsoleMode (← SM.get).outH t.oldOut

theorem termDrop_eq (t : WTerm) : winTermDrop t = SM.ignore (termDropBody t) := rfl

theorem grows_termDropBody (t : WTerm) : Grows (termDropBody t) :=
  Grows.bind (grows_cursorMode _) fun _ => Grows.bind grows_get fun _ => grows_boolCall _

theorem fails_termDropBody (t : WTerm) : Fails (termDropBody t) :=
  Fails.bind (grows_cursorMode _) (fails_cursorMode _) fun _ =>
    Fails.bind grows_get .get fun _ => .boolCall _

theorem grows_ignore {m : WM Unit} (h : Grows m) : Grows (SM.ignore m) := by
  intro s
  unfold SM.ignore
  obtain ⟨h1, h2⟩ := h s
  cases hm : m s with
  | stop w => constructor <;> (intro _ _ e; cases e)
  | ok a s1 =>
    constructor
    · intro a' s' e; cases e; exact h1 _ _ hm
    · intro a' s' e; cases e
  | err e1 s1 =>
    constructor
    · intro a' s' e; cases e; exact h2 _ _ hm
    · intro a' s' e; cases e

/-- Ignoring an error that did not happen. -/
theorem ignore_ok {m : WM Unit} (hf : Fails m) {s s' : WinSt} {D : List WEv}
    (h : SM.ignore m s = .ok () s') (hl : s'.log = s.log ++ D) (hn : NoFailure D) :
    m s = .ok () s' := by
  unfold SM.ignore at h
  cases hm : m s with
  | stop w => rw [hm] at h; cases h
  | ok a s1 => rw [hm] at h; exact h
  | err e1 s1 =>
    rw [hm] at h; cases h
    obtain ⟨D', c, d⟩ := hf s _ _ hm
    rw [d, List.append_assoc] at hl
    have := List.append_cancel_left hl
    subst this
    exact absurd rfl (hn c .fail (by simp)).1

theorem Does.ignore {P : Con → WinSt → Prop} {m : WM Unit} {Q : Unit → Con → WinSt → Prop}
    {E E' : IoErr → Con → WinSt → Prop} (h : Does u k P m Q E) (he : ∀ e c s, E e c s → Q () c s) :
    Does u k P (SM.ignore m) Q E' := by
  refine ⟨grows_ignore h.grows, ?_, ?_⟩
  · intro s c hp a s' D e hl hr
    unfold SM.ignore at e
    cases hm : m s with
    | stop w => rw [hm] at e; cases e
    | ok a s1 => rw [hm] at e; cases e; exact h.ok s c hp _ _ D hm hl hr
    | err e1 s1 =>
      rw [hm] at e; cases e
      obtain ⟨c', g1, g2⟩ := h.err s c hp _ _ D hm hl hr
      exact ⟨c', g1, he _ _ _ g2⟩
  · intro s c hp a s' D e hl hr
    unfold SM.ignore at e
    cases hm : m s <;> (rw [hm] at e; cases e)

/-! ## The calls -/

theorem SameTerm.setOutH {a b : WinSt} (h : SameTerm a b) (x : Nat) :
    SameTerm { a with outH := x } { b with outH := x } :=
  ⟨rfl, h.theme, h.rd, h.catchSet⟩

theorem does_outH {α : Type} (c0 : Con) (s0 : WinSt) {f : Nat → WM α}
    {Q : α → Con → WinSt → Prop} {E : IoErr → Con → WinSt → Prop} (hg : ∀ h, Grows (f h))
    (h : Does u k (CAt c0 s0) (f s0.outH) Q E) :
    Does u k (CAt c0 s0) (do let s ← SM.get; f s.outH) Q E := by
  refine Does.bind (R := fun a c s => a.outH = s0.outH ∧ CAt c0 s0 c s) ?_ fun a => ?_
  · refine Does.mono Does.get (fun _ _ h => h) ?_ (fun _ _ _ h => h)
    rintro a c s ⟨rfl, h⟩
    exact ⟨h.2.outH, h⟩
  · refine Does.assume (hg _) fun e => ?_
    rw [e]; exact h

theorem coordToSize_sizeCoord {z : Size} (h1 : z.lines ≤ 32767) (h2 : z.columns ≤ 32767) :
    coordToSize (sizeCoord z) = z := by
  rcases z with ⟨l, c⟩
  simp only [coordToSize, sizeCoord, shortToUsize, Size.mk.injEq] at *
  constructor <;> omega

theorem sizeToCoord_eq {z : Size} (h1 : z.lines ≤ 32767) (h2 : z.columns ≤ 32767) :
    sizeToCoord z = sizeCoord z := by
  rcases z with ⟨l, c⟩
  simp only [sizeToCoord, sizeCoord, toShort, Coord.mk.injEq] at *
  constructor <;> rw [if_neg (by omega)]

theorem does_size (c0 : Con) (s0 : WinSt) (hc : c0.Sane k) :
    Does u k (CAt c0 s0) winSize
      (fun z c s => (∃ o, c0.outs s0.outH = some o ∧ z = o.glyph.size) ∧ CAt c0 s0 c s)
      (fun _ => CAt c0 s0) := by
  unfold winSize
  refine does_outH c0 s0 (f := fun h => consoleSize h)
    (fun h => Grows.bind (grows_consoleInfo h) fun _ => Grows.pure _) ?_
  unfold consoleSize
  refine Does.bind (does_info c0 s0 (fun c s h => h) s0.outH) fun i => ?_
  refine Does.mono (Does.pure _) (fun _ _ h => h) ?_ (fun _ _ _ h => h)
  rintro z c s ⟨rfl, ⟨o, ho, hT⟩, h⟩
  refine ⟨⟨o, ho, ?_⟩, h⟩
  obtain ⟨h1, h2⟩ := hc.small _ o ho
  rw [hT.1, coordToSize_sizeCoord h1 h2]

theorem does_create (c0 : Con) (s0 : WinSt) :
    Does u k (CAt c0 s0) (handleCall .create)
      (fun h c s => (h = invalidHandle ∧ CAt c0 s0 c s) ∨
        ((h ≠ 0 ∧ h ≠ invalidHandle ∧ h ≠ k ∧ c0.outs h = none) ∧
          ∃ o, c0.outs c0.active = some o ∧ CAt (c0.setOut h o.fresh) s0 c s))
      (fun _ => CAt c0 s0) := by
  unfold handleCall
  refine Does.bind (R := fun a c s => (a = .handle invalidHandle ∧ CAt c0 s0 c s) ∨
    ∃ h, a = .handle h ∧ (h ≠ 0 ∧ h ≠ invalidHandle ∧ h ≠ k ∧ c0.outs h = none) ∧
      ∃ o, c0.outs c0.active = some o ∧ CAt (c0.setOut h o.fresh) s0 c s) ?_ fun a => ?_
  · refine Does.call (CAt.stable c0 s0) _ ?_ ?_
    · rintro c s a ⟨⟨q, rfl⟩, hs⟩ (rfl | ⟨h, rfl, h1, h2, h3, h4, o, h5⟩)
      · refine ⟨_, ?_, Or.inl ⟨rfl, ⟨q, rfl⟩, hs⟩⟩
        simp only [Con.step, if_true]
      · refine ⟨{ c0.setOut h o.fresh with queue := q }, ?_,
          Or.inr ⟨h, rfl, ⟨h1, h2, h3, h4⟩, o, h5, ⟨q, rfl⟩, hs⟩⟩
        simp only [Con.step, if_neg h2]
        rw [h5]; rfl
    · intro a c s q s' h hs
      rcases h with ⟨h1, h2⟩ | ⟨h, e, h1, o, h2, h3⟩
      · exact Or.inl ⟨h1, CAt.stable _ _ _ _ _ _ h2 hs⟩
      · exact Or.inr ⟨h, e, h1, o, h2, CAt.stable _ _ _ _ _ _ h3 hs⟩
  · cases a with
    | handle h =>
      refine Does.ite (fun h0 => ?_) (fun h0 => ?_)
      · subst h0
        refine Does.mono (Does.throw (P := fun _ _ => False) .os) ?_ (fun _ _ _ h => h)
          (fun _ _ _ h => h.2.elim)
        rintro c s (⟨h1, -⟩ | ⟨h, e, ⟨h1, -⟩, -⟩)
        · exact absurd h1 (by simp [invalidHandle])
        · cases e; exact h1 rfl
      · refine Does.mono (Does.pure h) (fun _ _ h => h) ?_ (fun _ _ _ h => h)
        rintro b c s ⟨rfl, (⟨h1, h2⟩ | ⟨h, e, h1, o, h2, h3⟩)⟩
        · cases h1; exact Or.inl ⟨rfl, h2⟩
        · cases e; exact Or.inr ⟨h1, o, h2, h3⟩
    | _ => exact .halt _

theorem grows_setup (h : Nat) (z : Size) : Grows (setupScreen h z) :=
  Grows.bind (grows_boolCall _) fun _ => grows_boolCall _

/-- The screen buffer of a screen of size `z` on a console that shows `o`. -/
def screenOut (o : OutBuf) (z : Size) : OutBuf := o.fresh.resize z

theorem does_setup (c0 : Con) (s0 : WinSt) {h : Nat} {o : OutBuf} (ho : c0.outs h = some o)
    {z : Size} (hz : z.lines ≤ 32767 ∧ z.columns ≤ 32767) :
    Does u k (CAt c0 s0) (setupScreen h z)
      (fun _ => CAt { c0.setOut h (o.resize z) with active := h } s0)
      (fun _ c s => CAt c0 s0 c s ∨ CAt (c0.setOut h (o.resize z)) s0 c s) := by
  unfold setupScreen
  refine Does.bind (R := fun _ => CAt (c0.setOut h (o.resize z)) s0) ?_ fun _ => ?_
  · refine Does.mono (does_bool c0 s0 (E := fun _ c s => CAt c0 s0 c s) (fun c s h => h) _
      (by bool_call) (fun c => c = c0.setOut h (o.resize z)) ?_) (fun _ _ h => h) ?_
      (fun _ _ _ h => Or.inl h)
    · intro q pos
      refine ⟨_, q, rfl, ?_⟩
      simp only [Con.step]
      rw [onOut_some (c := { c0 with queue := q }) ho, sizeToCoord_eq hz.1 hz.2,
        coordToSize_sizeCoord hz.1 hz.2]
      rfl
    · rintro a c s ⟨c1, rfl, h⟩; exact h
  · refine Does.mono (does_bool (c0.setOut h (o.resize z)) s0
      (E := fun _ c s => CAt (c0.setOut h (o.resize z)) s0 c s) (fun c s h => h) _ (by bool_call)
      (fun c => c = { c0.setOut h (o.resize z) with active := h }) ?_) (fun _ _ h => h) ?_
      (fun _ _ _ h => Or.inr h)
    · intro q pos
      refine ⟨_, q, rfl, ?_⟩
      simp only [Con.step]
      show Option.map _ ((c0.setOut h (o.resize z)).outs h) = _
      rw [setOut_outs]; rfl
    · rintro a c s ⟨c1, rfl, h⟩; exact h

theorem does_setup_none (c0 : Con) (s0 : WinSt) {h : Nat} (ho : c0.outs h = none) (z : Size)
    {Q : Unit → Con → WinSt → Prop} :
    Does u k (CAt c0 s0) (setupScreen h z) Q (fun _ => CAt c0 s0) := by
  unfold setupScreen
  refine Does.bind (R := fun _ _ _ => False) ?_ fun _ => ?_
  · refine Does.mono (does_bool c0 s0 (E := fun _ c s => CAt c0 s0 c s) (fun c s h => h) _
      (by bool_call) (fun _ => False) ?_) (fun _ _ h => h) ?_ (fun _ _ _ h => h)
    · rintro q (pos | ⟨-, o, pos, -⟩)
      · cases pos
      · have pos : c0.outs h = some o := pos
        rw [ho] at pos; cases pos
    · rintro _ _ _ ⟨_, h, -⟩; exact h
  · refine ⟨grows_boolCall _, fun _ _ h => h.elim, fun _ _ h => h.elim⟩

theorem does_close_any (c0 : Con) (s0 : WinSt) (h : Nat) :
    Does u k (CAt c0 s0) (boolCall (.close h))
      (fun _ => CAt { c0 with outs := fun j => if j = h then none else c0.outs j } s0)
      (fun _ => CAt c0 s0) := by
  refine Does.mono (does_bool c0 s0 (E := fun _ => CAt c0 s0) (fun c s h => h) _
      (by bool_call) (fun c => c = { c0 with outs := fun j => if j = h then none else c0.outs j }) ?_)
      (fun _ _ h => h) ?_ (fun _ _ _ h => h)
  · intro q pos
    exact ⟨_, q, rfl, rfl⟩
  · rintro a c s ⟨c1, rfl, h⟩; exact h

theorem Does.byCase {α : Type} {P P' : Con → WinSt → Prop} {m : WM α}
    {Q : α → Con → WinSt → Prop} {E : IoErr → Con → WinSt → Prop} (h : Does u k P m Q E)
    (h' : Does u k P' m Q E) : Does u k (fun c s => P c s ∨ P' c s) m Q E :=
  ⟨h.grows, fun s c hp => hp.elim (h.ok s c) (h'.ok s c),
    fun s c hp => hp.elim (h.err s c) (h'.err s c)⟩

theorem Does.exists {α ι : Type} {P : ι → Con → WinSt → Prop} {m : WM α}
    {Q : α → Con → WinSt → Prop} {E : IoErr → Con → WinSt → Prop} (hg : Grows m)
    (h : ∀ i, Does u k (P i) m Q E) : Does u k (fun c s => ∃ i, P i c s) m Q E :=
  ⟨hg, fun s c ⟨i, hp⟩ => (h i).ok s c hp, fun s c ⟨i, hp⟩ => (h i).err s c hp⟩

theorem grows_onErr {α : Type} {m : WM α} {d : WM Unit} (h : Grows m) (hd : Grows d) :
    Grows (SM.onErr m d) :=
  (Does.onErr (u := demoEnv) (k := 0) (P := fun _ _ => False) (Q := fun _ _ _ => False)
    (E := fun _ _ _ => False) (E' := fun _ _ _ => False) (R := fun _ _ => False)
    ⟨h, fun _ _ h => h.elim, fun _ _ h => h.elim⟩
    (fun _ => ⟨hd, fun _ _ h => h.elim, fun _ _ h => h.elim⟩) (fun _ _ _ _ h => h)).grows

/-- The buffer of a screen that has been entered, when `o` was visible. -/
def enteredOut (o : OutBuf) (z : Size) : OutBuf :=
  { screenOut o z with mode := o.mode &&& ~~~(ENABLE_WRAP_AT_EOL_OUTPUT |||
      DISABLE_NEWLINE_AUTO_RETURN) }

/-- The console after entering a screen with handle `h`: `o` was visible. -/
def enteredCon (c : Con) (h : Nat) (o : OutBuf) (z : Size) : Con :=
  { c.setOut h (enteredOut o z) with active := h }

/-- The part of `enter_screen` after the new buffer has been made visible. -/
def enterTail (h : Nat) : WM Nat := do
  let old := (← SM.get).outH
  SM.modify fun s => { s with outH := h }
  let m ← consoleMode h
  setConsoleMode h (m &&& ~~~(ENABLE_WRAP_AT_EOL_OUTPUT ||| DISABLE_NEWLINE_AUTO_RETURN))
  pure old

theorem grows_enterTail (h : Nat) : Grows (enterTail h) :=
  Grows.bind grows_get fun _ => Grows.bind (grows_modify (fun _ => rfl)) fun _ =>
    Grows.bind (grows_consoleMode _) fun _ => Grows.bind (grows_boolCall _) fun _ => Grows.pure _

theorem does_enterTail (c0 : Con) (s0 : WinSt) {h : Nat} (hk : h ≠ k) {o : OutBuf}
    (ho : c0.outs h = some o) :
    Does u k (CAt c0 s0) (enterTail h)
      (fun old c s => old = s0.outH ∧ CAt (c0.setOut h { o with mode := o.mode &&&
        ~~~(ENABLE_WRAP_AT_EOL_OUTPUT ||| DISABLE_NEWLINE_AUTO_RETURN) }) { s0 with outH := h } c s)
      (fun _ => CAt c0 { s0 with outH := h }) := by
  unfold enterTail
  refine does_outH c0 s0 (f := fun old => do
    SM.modify fun s => { s with outH := h }
    let m ← consoleMode h
    setConsoleMode h (m &&& ~~~(ENABLE_WRAP_AT_EOL_OUTPUT ||| DISABLE_NEWLINE_AUTO_RETURN))
    pure old) (fun _ => Grows.bind (grows_modify (fun _ => rfl)) fun _ =>
    Grows.bind (grows_consoleMode _) fun _ => Grows.bind (grows_boolCall _) fun _ => Grows.pure _) ?_
  refine Does.bind (R := fun _ => CAt c0 { s0 with outH := h }) ?_ fun _ => ?_
  · refine Does.modify (fun _ => rfl) ?_
    rintro c s ⟨h1, h2⟩
    exact ⟨h1, h2.setOutH h⟩
  · refine Does.bind (does_mode c0 _ (fun c s h => h) h) fun m => ?_
    refine Does.assume (Grows.bind (grows_boolCall _) fun _ => Grows.pure _) fun e => ?_
    have e : m = o.mode := by
      rcases e with ⟨e, -⟩ | ⟨-, o', h1, e⟩
      · exact absurd e hk
      · rw [ho] at h1; cases h1; exact e
    subst e
    refine Does.bind (does_setMode_out c0 _ (fun c s h => h) hk _) fun _ => ?_
    refine Does.mono (Does.pure _) (fun _ _ h => h) ?_ (fun _ _ _ h => h)
    rintro old c s ⟨rfl, o', h1, h2⟩
    rw [ho] at h1; cases h1
    exact ⟨rfl, h2⟩

theorem grows_enter : Grows winEnterScreen := by
  unfold winEnterScreen
  refine Grows.bind (Grows.bind grows_get fun _ => Grows.bind (grows_consoleInfo _) fun _ =>
    Grows.pure _) fun z => Grows.bind (grows_handleCall _) fun h => ?_
  exact Grows.bind (grows_onErr (grows_setup h z) (grows_boolCall _)) fun _ => grows_enterTail h

/-- `enter_screen`. On an error, the visible buffer and the handle of the terminal are as before, or
both are the new one. -/
theorem does_enter (c0 : Con) (s0 : WinSt) (hc : c0.Sane k) :
    Does u k (CAt c0 s0) winEnterScreen
      (fun old c s => old = s0.outH ∧ ∃ h oa oz, (h ≠ 0 ∧ h ≠ invalidHandle ∧ h ≠ k ∧
          c0.outs h = none) ∧ c0.outs c0.active = some oa ∧ c0.outs s0.outH = some oz ∧
        CAt (enteredCon c0 h oa oz.glyph.size) { s0 with outH := h } c s)
      (fun _ c s => (c.active = c0.active ∧ s.outH = s0.outH) ∨
        (c.active = s.outH ∧ c0.outs s.outH = none)) := by
  have hA : ∀ {c s}, CAt c0 s0 c s → (c.active = c0.active ∧ s.outH = s0.outH) := by
    rintro c s ⟨⟨q, rfl⟩, h⟩; exact ⟨rfl, h.outH⟩
  unfold winEnterScreen
  refine Does.bind (Does.mono (does_size c0 s0 hc) (fun _ _ h => h) (fun _ _ _ h => h)
    (fun _ _ _ h => Or.inl (hA h))) fun z => ?_
  refine Does.assume (Grows.bind (grows_handleCall _) fun h =>
    Grows.bind (grows_onErr (grows_setup h z) (grows_boolCall _)) fun _ => grows_enterTail h) ?_
  rintro ⟨oz, hoz, rfl⟩
  have hz := hc.small _ oz hoz
  refine Does.bind (Does.mono (does_create c0 s0) (fun _ _ h => h) (fun _ _ _ h => h)
    (fun _ _ _ h => Or.inl (hA h))) fun h => ?_
  refine Does.byCase ?_ ?_
  · refine Does.assume (Grows.bind (grows_onErr (grows_setup h _) (grows_boolCall _)) fun _ =>
      grows_enterTail h) fun e => ?_
    subst e
    refine Does.bind (R := fun _ _ _ => False) ?_ fun _ =>
      ⟨grows_enterTail _, fun _ _ h => h.elim, fun _ _ h => h.elim⟩
    refine Does.onErr (R := CAt c0 s0) (E' := fun _ => CAt c0 s0)
      (does_setup_none c0 s0 hc.invalid _) (fun _ => ?_) (fun _ _ c s h => Or.inl (hA h))
    refine Does.mono (does_close_any c0 s0 _) (fun _ _ h => h) ?_ (fun _ _ _ h => h)
    rintro _ c s ⟨⟨q, rfl⟩, h⟩
    exact Or.inl ⟨rfl, h.outH⟩
  · refine Does.assume (Grows.bind (grows_onErr (grows_setup h _) (grows_boolCall _)) fun _ =>
      grows_enterTail h) ?_
    rintro ⟨h0, h1, h2, h3⟩
    refine Does.exists (Grows.bind (grows_onErr (grows_setup h _) (grows_boolCall _)) fun _ =>
      grows_enterTail h) fun oa => ?_
    refine Does.assume (Grows.bind (grows_onErr (grows_setup h _) (grows_boolCall _)) fun _ =>
      grows_enterTail h) fun hoa => ?_
    let c1 : Con := { c0.setOut h (screenOut oa oz.glyph.size) with active := h }
    refine Does.bind (R := fun _ => CAt c1 s0) ?_ fun _ => ?_
    · have hB : ∀ {o : OutBuf} {c s}, CAt (c0.setOut h o) s0 c s →
          (c.active = c0.active ∧ s.outH = s0.outH) := by
        rintro o c s ⟨⟨q, rfl⟩, h⟩; exact ⟨rfl, h.outH⟩
      refine Does.onErr (R := fun c s => CAt (c0.setOut h oa.fresh) s0 c s ∨
          CAt (c0.setOut h (screenOut oa oz.glyph.size)) s0 c s)
        (E' := fun _ c s => c.active = c0.active ∧ s.outH = s0.outH) ?_ (fun _ => ?_)
        (fun _ _ c s h => Or.inl h)
      · refine Does.mono (does_setup (c0.setOut h oa.fresh) s0 (setOut_outs _ _ _) hz)
          (fun _ _ h => h) ?_ ?_
        · intro _ c s hh
          rw [setOut_setOut] at hh; exact hh
        · intro _ c s hh
          rw [setOut_setOut] at hh; exact hh
      · refine Does.byCase ?_ ?_
        · refine Does.mono (does_close_any (c0.setOut h oa.fresh) s0 h) (fun _ _ h => h) ?_
            (fun _ _ _ h => hB h)
          rintro _ c s ⟨⟨q, rfl⟩, h⟩
          exact Or.inl ⟨rfl, h.outH⟩
        · refine Does.mono (does_close_any (c0.setOut h (screenOut oa oz.glyph.size)) s0 h)
            (fun _ _ h => h) ?_ (fun _ _ _ h => hB h)
          rintro _ c s ⟨⟨q, rfl⟩, h⟩
          exact Or.inl ⟨rfl, h.outH⟩
    · have ho : c1.outs h = some (screenOut oa oz.glyph.size) := setOut_outs _ _ _
      refine Does.mono (does_enterTail c1 s0 h2 ho) (fun _ _ h => h) ?_ ?_
      · rintro old c s ⟨rfl, hh⟩
        refine ⟨rfl, h, oa, oz, ⟨h0, h1, h2, h3⟩, hoa, hoz, ?_⟩
        have e : c1.setOut h { screenOut oa oz.glyph.size with mode :=
            (screenOut oa oz.glyph.size).mode &&& ~~~(ENABLE_WRAP_AT_EOL_OUTPUT |||
              DISABLE_NEWLINE_AUTO_RETURN) } = enteredCon c0 h oa oz.glyph.size := by
          unfold enteredCon
          show ({ (c0.setOut h (screenOut oa oz.glyph.size)).setOut h _ with active := h } : Con) = _
          rw [setOut_setOut]; rfl
        rw [← e]; exact hh
      · rintro _ c s ⟨⟨q, rfl⟩, hh⟩
        refine Or.inr ⟨?_, ?_⟩
        · show h = s.outH; rw [hh.outH]
        · rw [hh.outH]; exact h3

/-- `exit_screen`. -/
theorem does_exit (c0 : Con) (s0 : WinSt) {old : Nat} :
    Does u k (CAt c0 s0) (winExitScreen old)
      (fun _ => CAt { c0 with active := old, outs := fun j => if j = s0.outH then none else c0.outs j }
        { s0 with outH := old })
      (fun _ c s => CAt c0 s0 c s ∨ CAt { c0 with active := old } { s0 with outH := old } c s) := by
  unfold winExitScreen
  refine Does.bind (R := fun _ => CAt { c0 with active := old } s0) ?_ fun _ => ?_
  · refine Does.mono (does_bool c0 s0 (E := fun _ => CAt c0 s0) (fun c s h => h) _ (by bool_call)
      (fun c => c = { c0 with active := old }) ?_) (fun _ _ h => h) ?_ (fun _ _ _ h => Or.inl h)
    · rintro q (pos | ⟨-, o, pos⟩)
      · cases pos
      · refine ⟨_, q, rfl, ?_⟩
        simp only [Con.step]
        rw [pos]; rfl
    · rintro a c s ⟨c1, rfl, h⟩; exact h
  · refine does_outH { c0 with active := old } s0 (f := fun h => do
      SM.modify fun s => { s with outH := old }
      boolCall (.close h)) (fun _ => Grows.bind (grows_modify (fun _ => rfl)) fun _ =>
      grows_boolCall _) ?_
    refine Does.bind (R := fun _ => CAt { c0 with active := old } { s0 with outH := old }) ?_
      fun _ => ?_
    · refine Does.modify (fun _ => rfl) ?_
      rintro c s ⟨h1, h2⟩
      exact ⟨h1, h2.setOutH old⟩
    · exact Does.mono (does_close_any { c0 with active := old } { s0 with outH := old } s0.outH)
        (fun _ _ h => h) (fun _ _ _ h => h) (fun _ _ _ h => Or.inr h)

/-- `Drop for Terminal`. -/
theorem does_termDropBody (c0 : Con) (s0 : WinSt) (t : WTerm) (hk : s0.outH ≠ k) :
    Does u k (CAt c0 s0) (termDropBody t)
      (fun _ c s => ∃ o, c0.outs s0.outH = some o ∧ CAt (c0.setOut s0.outH (o.released t)) s0 c s)
      (fun _ c s => CAt c0 s0 c s ∨ ∃ o, CAt (c0.setOut s0.outH o) s0 c s) := by
  unfold termDropBody
  refine Does.bind (R := fun _ c s => ∃ o, c0.outs s0.outH = some o ∧
    CAt (c0.setOut s0.outH { o with shape := (25, true) }) s0 c s) ?_ fun _ => ?_
  · unfold winCursorMode
    refine does_outH c0 s0 (f := fun h => boolCall (.setCursorInfo h 25 true))
      (fun _ => grows_boolCall _) ?_
    refine Does.mono (does_bool c0 s0 (E := fun _ => CAt c0 s0) (fun _ _ h => h) _ (by bool_call) (fun c => ∃ o, c0.outs s0.outH = some o ∧
        c = c0.setOut s0.outH { o with shape := (25, true) }) ?_) (fun _ _ h => h) ?_
      (fun _ _ _ h => Or.inl h)
    · rintro q (pos | ⟨-, o, pos⟩)
      · cases pos
      · refine ⟨_, q, ⟨o, pos, rfl⟩, ?_⟩
        simp only [Con.step]
        rw [onOut_some (c := { c0 with queue := q }) pos]; rfl
    · rintro a c s ⟨c1, ⟨o, ho, rfl⟩, h⟩; exact ⟨o, ho, h⟩
  · refine Does.exists (Grows.bind grows_get fun _ => grows_boolCall _) fun o => ?_
    refine Does.assume (Grows.bind grows_get fun _ => grows_boolCall _) fun ho => ?_
    refine does_outH _ s0 (f := fun h => setConsoleMode h t.oldOut) (fun _ => grows_boolCall _) ?_
    refine Does.mono (does_setMode_out _ s0 ?_ hk t.oldOut) (fun _ _ h => h) ?_ (fun _ _ _ h => h)
    · intro c s h
      exact Or.inr ⟨_, h⟩
    · rintro _ c s ⟨o', h1, h2⟩
      rw [setOut_outs] at h1
      cases h1
      rw [setOut_setOut] at h2
      exact ⟨o, ho, h2⟩

theorem does_any (call : ConCall)
    (hB : ∀ (c : Con) a, c.Possible k (.call call a) → a = .fail ∨ a = .ok)
    (h : ∀ c : Con, c.Possible k (.call call .ok) → ∃ c', c.step u k (.call call .ok) = some c') :
    Does u k (fun _ _ => True) (boolCall call) (fun _ _ _ => True) (fun _ _ _ => True) := by
  refine Does.boolCall (fun _ _ _ _ _ _ => trivial) call hB ?_ (fun _ _ _ _ _ _ => trivial)
    (fun _ _ _ => trivial)
  intro c s _ pos
  obtain ⟨c', e⟩ := h c pos
  exact ⟨c', e, trivial⟩

/-- Dropping a terminal always has some result. -/
theorem does_termDrop_any (t : WTerm) (E : IoErr → Con → WinSt → Prop) :
    Does u k (fun _ _ => True) (winTermDrop t) (fun _ _ _ => True) E := by
  rw [termDrop_eq]
  refine Does.ignore (E := fun _ _ _ => True) ?_ (fun _ _ _ _ => trivial)
  unfold termDropBody
  refine Does.bind (R := fun _ _ _ => True) ?_ fun _ => ?_
  · unfold winCursorMode
    refine Does.bind (R := fun _ _ _ => True) (Does.mono Does.get (fun _ _ h => h)
      (fun _ _ _ _ => trivial) (fun _ _ _ h => h)) fun a => ?_
    refine does_any _ (by bool_call) ?_
    rintro c (pos | ⟨-, o, pos⟩)
    · cases pos
    · exact ⟨_, by simp only [Con.step]; rw [onOut_some pos]; rfl⟩
  · refine Does.bind (R := fun _ _ _ => True) (Does.mono Does.get (fun _ _ h => h)
      (fun _ _ _ _ => trivial) (fun _ _ _ h => h)) fun a => ?_
    refine does_any _ (by bool_call) ?_
    rintro c (pos | ⟨-, pos | ⟨o, pos⟩⟩)
    · cases pos
    · exact ⟨_, by simp only [Con.step]; rw [if_pos pos]⟩
    · simp only [Con.step]
      split
      · exact ⟨_, rfl⟩
      · exact ⟨_, by rw [onOut_some pos]; rfl⟩

/-- Entering a screen and preparing the terminal. -/
theorem does_screenNew (c0 : Con) (s0 : WinSt) (t : WTerm) (cfg : PrepareConfig)
    (hc : c0.Sane t.inH) :
    Does u t.inH (CAt c0 s0) (winScreenNew t cfg)
      (fun r c s => r.1.old = s0.outH ∧ r.1.state = ⟨c0.inMode, reports cfg⟩ ∧
        ∃ h oa oz, (h ≠ 0 ∧ h ≠ invalidHandle ∧ h ≠ t.inH ∧ c0.outs h = none) ∧
          c0.outs c0.active = some oa ∧ c0.outs s0.outH = some oz ∧
          r.2 = SData.new oz.glyph.size ∧
          CAt (preparedCon cfg (enteredCon c0 h oa oz.glyph.size))
            (preparedSt cfg { s0 with outH := h }) c s)
      (fun _ _ _ => True) := by
  unfold winScreenNew
  refine Does.onErr (R := fun _ _ => True) (E' := fun _ _ _ => True) ?_
    (fun _ => does_termDrop_any t _)
    (fun _ _ _ _ h => h)
  refine Does.bind (Does.mono (does_size c0 s0 hc) (fun _ _ h => h) (fun _ _ _ h => h)
    (fun _ _ _ _ => trivial)) fun z => ?_
  have hG : ∀ (z : Size) old, Grows (do
      let state ← winPrepare t cfg
      pure ((⟨state, old⟩ : WScreen), SData.new z)) := fun z old =>
    Grows.bind (does_prepare (u := demoEnv) demoCon (demoSt []) t cfg).grows fun _ => Grows.pure _
  refine Does.assume (Grows.bind grows_enter fun old => hG z old) ?_
  rintro ⟨oz, hoz, rfl⟩
  refine Does.bind (Does.mono (does_enter c0 s0 hc) (fun _ _ h => h) (fun _ _ _ h => h)
    (fun _ _ _ _ => trivial)) fun old => ?_
  refine Does.assume (hG _ old) ?_
  rintro rfl
  refine Does.exists (hG _ _) fun h => ?_
  refine Does.exists (hG _ _) fun oa => ?_
  refine Does.exists (hG _ _) fun oz' => ?_
  refine Does.assume (hG _ _) fun hh => ?_
  refine Does.assume (hG _ _) fun hoa => ?_
  refine Does.assume (hG _ _) fun hoz' => ?_
  rw [hoz] at hoz'; cases hoz'
  refine Does.bind (Does.mono (does_prepare _ _ t cfg) (fun _ _ h => h) (fun _ _ _ h => h)
    (fun _ _ _ _ => trivial)) fun p => ?_
  refine Does.mono (Does.pure _) (fun _ _ h => h) ?_ (fun _ _ _ h => h)
  rintro r c s ⟨rfl, rfl, hA⟩
  exact ⟨rfl, rfl, h, oa, oz, hh, hoa, hoz, rfl, hA⟩

/-- Restoring and leaving the screen, without failures. -/
theorem does_leave (c0 : Con) (s0 : WinSt) (t : WTerm) (x : WScreen) :
    Does u t.inH (CAt c0 s0) (do winRestore t x.state; winExitScreen x.old)
      (fun _ => CAt { restoredCon x.state c0 with
          active := x.old, outs := fun j => if j = s0.outH then none else c0.outs j }
        { s0 with outH := x.old })
      (fun _ _ _ => True) := by
  refine Does.bind (Does.mono (does_restore c0 s0 t x.state) (fun _ _ h => h) (fun _ _ _ h => h)
    (fun _ _ _ _ => trivial)) fun _ => ?_
  exact Does.mono (does_exit (restoredCon x.state c0) s0) (fun _ _ h => h) (fun _ _ _ h => h)
    (fun _ _ _ _ => trivial)

theorem fails_leave (t : WTerm) (x : WScreen) :
    Fails (do winRestore t x.state; winExitScreen x.old) :=
  Fails.bind (grows_restore t x.state) (fails_restore t x.state) fun _ => fails_exit x.old

/-- Dropping a screen, without failures. -/
theorem winScreenDrop_ok {c : Con} {s s' : WinSt} {t : WTerm} {x : WScreen} {D : List WEv}
    (h : winScreenDrop t x s = .ok () s') (hl : s'.log = s.log ++ D) (hr : c.Runs u t.inH D)
    (hn : NoFailure D) (hk : x.old ≠ t.inH) :
    ∃ c' o, c.play u t.inH D = some c' ∧ x.old ≠ s.outH ∧ c.outs x.old = some o ∧
      s'.outH = x.old ∧ s'.theme = s.theme ∧ ∃ q,
      c' = { restoredCon x.state c with
          queue := q, active := x.old
          outs := fun j => if j = x.old then some (o.released t) else if j = s.outH then none
            else c.outs j } := by
  unfold winScreenDrop at h
  simp only [sm_bind] at h
  cases h1 : SM.ignore (do winRestore t x.state; winExitScreen x.old) s with
  | stop w => rw [h1] at h; cases h
  | err e s1 => rw [h1] at h; cases h
  | ok a s1 =>
    rw [h1] at h; dsimp only at h
    have hg1 : Grows (do winRestore t x.state; winExitScreen x.old : WM Unit) :=
      Grows.bind (grows_restore t x.state) fun _ => grows_exit x.old
    obtain ⟨D1, d1⟩ := (grows_ignore hg1 s).1 a s1 h1
    obtain ⟨D2, d2⟩ := (grows_ignore (grows_termDropBody t) s1).1 () s' h
    have hD : D = D1 ++ D2 := by
      rw [d2, d1, List.append_assoc] at hl
      exact (List.append_cancel_left hl).symm
    subst hD
    have m1 := ignore_ok (fails_leave t x) h1 d1 fun c a hm => hn c a (by simp [hm])
    have m2 := ignore_ok (fails_termDropBody t) h d2 fun c a hm => hn c a (by simp [hm])
    obtain ⟨r1, r2⟩ := con_runs_append hr
    obtain ⟨c1, p1, ⟨q1, rfl⟩, g1⟩ := (does_leave c s t x).ok s c (.refl c s) () s1 D1 m1 d1 r1
    have r3 := r2 _ p1
    have ho1 : s1.outH = x.old := g1.outH
    obtain ⟨c2, p2, o, ho, ⟨q2, rfl⟩, g2⟩ := (does_termDropBody _ s1 t (by rw [ho1]; exact hk)).ok s1 _
      (.refl _ s1) () s' D2 m2 d2 r3
    rw [ho1] at ho
    have ho : (if x.old = s.outH then none else c.outs x.old) = some o := ho
    by_cases he : x.old = s.outH
    · rw [if_pos he] at ho; cases ho
    · rw [if_neg he] at ho
      refine ⟨_, o, by rw [con_play_append, p1]; exact p2, he, ho, g2.outH.trans ho1,
        g2.theme.trans g1.theme, q2, ?_⟩
      rw [ho1]
      rfl

end Mortal
