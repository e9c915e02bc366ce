import Verif.Lemmas.VtClose

/-! # What the modes are while a screen is open -/

namespace Mortal
open Spec

/-- What `prepare` sends with the configuration does not end `P`. -/
structure Pres (env : REnv) (cfg : PrepareConfig) (P : DevModes → Prop) : Prop where
  mouse : cfg.enableMouse = true → env.xterm = true → ∀ d, P d → P { d with mouse := true }
  motion : cfg.enableMouse = true → env.xterm = true → cfg.alwaysTrackMotion = true →
    ∀ d, P d → P { d with motion := true }
  keypad : cfg.enableKeypad = true → ∀ d, P d → P { d with keypad := true }

/-- `P` stays. -/
def ModesKept (P : DevModes → Prop) (s s' : US) : Prop :=
  P (devModes s.w.log) → P (devModes s'.w.log)

theorem ModesKept.same {P : DevModes → Prop} {s s' : US} (h : s'.w.log = s.w.log) : ModesKept P s s' := by
  unfold ModesKept
  rw [h]
  exact id

instance (P : DevModes → Prop) : ReadFree (ModesKept P) where
  refl _ := ModesKept.same rfl
  trans h1 h2 := fun h => h2 (h1 h)
  dl s g := by unfold deliver; split <;> exact ModesKept.same rfl
  sc _ _ _ _ := ModesKept.same rfl
  wt _ _ := ModesKept.same rfl
  clr _ := ModesKept.same rfl
  inp _ _ _ _ := ModesKept.same rfl

section
variable {env : REnv} {P : DevModes → Prop}

theorem modes_liftW {f : WS → Outcome WS}
    (hf : ∀ s, match f s with
      | .ok s' => P (devModes s.log) → P (devModes s'.log)
      | .err _ s' => P (devModes s.log) → P (devModes s'.log)
      | .stop _ => True) : Keeps (ModesKept P) (liftW f) := by
  intro s
  have h := hf s.w
  unfold liftW
  cases hc : f s.w with
  | ok w => rw [hc] at h; exact h
  | err e w => rw [hc] at h; exact h
  | stop r => trivial

theorem modes_flush : Keeps (ModesKept P) (liftW flush) := by
  refine modes_liftW fun s => ?_
  have h := flush_log s
  cases hc : flush s with
  | ok s' => rw [hc] at h; dsimp only at h ⊢; rw [h]; exact id
  | err e s' => rw [hc] at h; dsimp only at h ⊢; rw [h]; exact id
  | stop w => trivial

theorem modes_dropWriter (e : WEnv) : Keeps (ModesKept P) (dropWriter e) := by
  refine modes_liftW fun s => ?_
  have h := sessionEnd_log e s
  cases hc : WOp.sessionEnd.run e s with
  | ok s' => rw [hc] at h; dsimp only at h ⊢; rw [h]; exact id
  | err e s' => rw [hc] at h; dsimp only at h ⊢; rw [h]; exact id
  | stop w => trivial

theorem modes_write {b : Bytes} (hb : ∀ d, P d → P (modeStep d (.text b))) :
    Keeps (ModesKept P) (liftW (writeBytes b)) := by
  refine modes_liftW fun s => ?_
  have h := writeBytes_log b s
  cases hc : writeBytes b s with
  | ok s' => rw [hc] at h; dsimp only at h ⊢; rw [h, devModes_snoc]; exact hb _
  | err e s' => rw [hc] at h; dsimp only at h ⊢; rw [h]; exact id
  | stop w => trivial

theorem modes_expand {e : WEnv} {c : Cap} {ps : List Nat} {f : List Nat → Bytes × Bool}
    (hb : ∀ d, P d → P (modeStep d (.cap c ps))) :
    Keeps (ModesKept P) (liftW (expand e c ps f)) := by
  refine modes_liftW fun s => ?_
  unfold expand
  rcases f ps with ⟨b, good⟩
  cases good
  · show P _ → P (devModes (s.log ++ [.junk b]))
    rw [devModes_snoc]
    exact id
  · show P _ → P (devModes (s.log ++ [.cap c ps]))
    rw [devModes_snoc]
    exact hb _

theorem modes_withWriter {α : Type} {m : M α} (h : Keeps (ModesKept P) m) :
    Keeps (ModesKept P) (withWriter env m) := by
  intro s
  have h1 := h s
  unfold withWriter
  cases hc : m s with
  | ok a s1 =>
    rw [hc] at h1
    have h2 : Keeps (ModesKept P) (do dropWriter env.w; pure a : M α) :=
      (modes_dropWriter _).bind fun _ => Keeps.pure _
    have h3 := h2 s1
    dsimp only
    generalize (do dropWriter env.w; pure a : M α) s1 = r at h3 ⊢
    cases r with
    | ok b s2 => exact Frame.trans (R := ModesKept P) h1 h3
    | err e s2 => exact Frame.trans (R := ModesKept P) h1 h3
    | stop w => trivial
  | err e s1 =>
    rw [hc] at h1
    have h2 : Keeps (ModesKept P) (do dropWriter env.w; throwIo e : M α) :=
      (modes_dropWriter _).bind fun _ => Keeps.throwIo _
    have h3 := h2 s1
    dsimp only
    generalize (do dropWriter env.w; throwIo e : M α) s1 = r at h3 ⊢
    cases r with
    | ok b s2 => exact Frame.trans (R := ModesKept P) h1 h3
    | err e s2 => exact Frame.trans (R := ModesKept P) h1 h3
    | stop w => trivial
  | stop w => trivial

theorem modes_mouseOn {cfg : PrepareConfig} (hu : Pres env cfg P) :
    Keeps (ModesKept P) (mouseOn env cfg) := by
  unfold mouseOn
  split
  · rename_i he
    unfold enableMouse
    split
    · rename_i hx
      refine (modes_write ?_).bind fun _ => Keeps.bind ?_ fun _ => Keeps.pure _
      · intro d hd
        rw [enableMouse_text]
        exact hu.mouse he hx d hd
      · split
        · rename_i hm
          refine modes_write ?_
          intro d hd
          rw [enableMotion_text]
          exact hu.motion he hx hm d hd
        · exact Keeps.pure _
    · exact Keeps.pure _
  · exact Keeps.pure _

theorem modes_keypadOn {cfg : PrepareConfig} (hu : Pres env cfg P) :
    Keeps (ModesKept P) (keypadOn env cfg) := by
  unfold keypadOn
  split
  · rename_i he
    unfold enableKeypad
    split
    · exact (modes_expand (c := .keypadXmit) (ps := []) (hu.keypad he)).bind fun _ => Keeps.pure _
    · exact Keeps.pure _
  · exact Keeps.pure _

theorem modes_sigaction (g : Sig) (d : Disp) : Keeps (ModesKept P) (sigaction g d) := by
  refine keeps_sysCall.bind fun _ => Keeps.getS.bind fun _ =>
    (Keeps.modifyS ?_).bind fun _ => Keeps.pure _
  exact fun _ => ModesKept.same rfl

theorem modes_installIf (c : Bool) (g : Sig) : Keeps (ModesKept P) (installIf c g) := by
  unfold installIf
  split
  · exact (modes_sigaction _ _).bind fun _ => Keeps.pure _
  · exact Keeps.pure _

/-- `prepare` with a configuration that does not switch the part on. -/
theorem modes_prepare {cfg : PrepareConfig} (hu : Pres env cfg P) :
    Keeps (ModesKept P) (prepare env cfg) := by
  refine modes_withWriter ?_
  refine (keeps_sysCall.bind fun _ => Keeps.getS.bind fun _ => Keeps.pure _).bind fun _ =>
    Keeps.getS.bind fun _ =>
    (keeps_sysCall.bind fun _ => Keeps.modifyS ?_).bind fun _ =>
    (modes_mouseOn hu).bind fun _ => (modes_keypadOn hu).bind fun _ => modes_flush.bind fun _ =>
    (modes_sigaction _ _).bind fun _ => (modes_sigaction _ _).bind fun _ =>
    (modes_installIf _ _).bind fun _ => (modes_installIf _ _).bind fun _ =>
    (modes_installIf _ _).bind fun _ => (Keeps.modifyS ?_).bind fun _ => Keeps.pure _
  · exact fun _ => ModesKept.same rfl
  · exact fun _ => ModesKept.same rfl

end

/-- The part stays off unless `resume` would switch it on, and what `resume` would do stays. -/
def ModesStay (env : REnv) (P : DevModes → Prop) (s s' : US) : Prop :=
  s'.resume = s.resume ∧ ((∀ cfg, s.resume = some cfg → Pres env cfg P) → ModesKept P s s')

theorem ModesStay.same {env : REnv} {P : DevModes → Prop} {s s' : US} (h1 : s'.resume = s.resume)
    (h2 : s'.w.log = s.w.log) : ModesStay env P s s' := ⟨h1, fun _ => ModesKept.same h2⟩

instance (env : REnv) (P : DevModes → Prop) : ReadFree (ModesStay env P) where
  refl _ := ModesStay.same rfl rfl
  trans := by
    rintro a b c ⟨h1, h2⟩ ⟨h3, h4⟩
    refine ⟨h3.trans h1, fun h ho => h4 ?_ (h2 h ho)⟩
    intro cfg hc
    exact h cfg (h1 ▸ hc)
  dl s g := by unfold deliver; split <;> exact ModesStay.same rfl rfl
  sc _ _ _ _ := ModesStay.same rfl rfl
  wt _ _ := ModesStay.same rfl rfl
  clr _ := ModesStay.same rfl rfl
  inp _ _ _ _ := ModesStay.same rfl rfl

theorem modesStay_resume (env : REnv) (P : DevModes → Prop) : Keeps (ModesStay env P) (resumeM env) := by
  intro s
  unfold resumeM
  rw [M.bind_apply]
  dsimp only [getS]
  cases hc : s.resume with
  | none => exact ModesStay.same rfl rfl
  | some cfg =>
    dsimp only
    rw [M.bind_apply]
    have h := within_prepare env cfg s
    have res : ∀ s1, Within cfg s s1 → s1.resume = s.resume := by
      rintro s1 ⟨_, h | h⟩
      · exact h
      · rw [h, hc]
    cases hp : prepare env cfg s with
    | ok p s1 =>
      rw [hp] at h
      exact ⟨res s1 h, fun hu => (modes_prepare (hu cfg hc)).ok hp⟩
    | err e s1 =>
      rw [hp] at h
      exact ⟨res s1 h, fun hu => (modes_prepare (hu cfg hc)).err hp⟩
    | stop w => trivial

theorem modesStay_termSize (env : REnv) (P : DevModes → Prop) : Keeps (ModesStay env P) (termSize env) := by
  have h1 : Keeps (ModesKept P) (termSize env) :=
    modes_withWriter (keeps_sysCall.bind fun _ => Keeps.getS.bind fun _ => Keeps.pure _)
  have h2 : Keeps SameButLog (termSize env) :=
    keeps_withWriter env (keeps_sysCall.bind fun _ => Keeps.getS.bind fun _ => Keeps.pure _)
  intro s
  cases hp : termSize env s with
  | ok p s1 => exact ⟨(h2.ok hp).2.2.2, fun _ => h1.ok hp⟩
  | err e s1 => exact ⟨(h2.err hp).2.2.2, fun _ => h1.err hp⟩
  | stop w => trivial

theorem modesStay_handleSignal (env : REnv) (P : DevModes → Prop) (sig : Signal) :
    Keeps (ModesStay env P) (handleSignal env sig) := by
  have hrep : Keeps (ModesStay env P) (do
      if (← getS).report.contains sig then pure (some (Event.signal sig)) else pure none) := by
    refine Keeps.getS.bind fun s => ?_
    split <;> exact Keeps.pure _
  cases sig
  case «continue» => exact (modesStay_resume env P).bind fun _ => hrep
  case resize => exact (modesStay_termSize env P).bind fun _ => Keeps.pure _
  all_goals exact hrep
theorem wret_modes {env : REnv} {P : DevModes → Prop} {d' : SData} {s s' : US} {r : URet} {o : Outcome Scr} {base : WS}
    (hb : base = s.w)
    (ho : ∀ s1, o.state = some s1 → TameScr base s1) (e : wret s o = some (r, d', s')) : ModesStay env P s s' := by
  subst hb
  have key : ∀ s1 : Scr, TameScr s.w s1 → ModesStay env P s { s with w := s1.w } := fun s1 h =>
    ⟨rfl, fun _ hf => by
      show P (devModes s1.w.log)
      rw [h.1.2]; exact hf⟩
  cases o with
  | ok s1 => cases e; exact key s1 (ho s1 rfl)
  | err y s1 => cases e; exact key s1 (ho s1 rfl)
  | stop y => cases e

theorem modes_scr {u : UEnv} (hT : TableOk u) {env : REnv} (hx : env.w = xtermDB) {op : ScrOp} {d d' : SData}
    {s s' : US} {r : URet} (hc : CleanBuf d.buf) (e : op.run u env d s = some (r, d', s')) (P : DevModes → Prop) :
    ModesStay env P s s' := by
  have h0 : TameScr s.w { d with w := s.w } := ⟨TameSince.refl _, hc⟩
  have qt : ∀ {α : Type} {m : M α} {f : α → URet}, Keeps (ModesStay env P) m →
      (ret f (m s)).map (fun (r, s) => (r, d, s)) = some (r, d', s') → ModesStay env P s s' := by
    intro α m f hm e
    have hm := hm s
    cases hr : m s with
    | ok a s1 => rw [hr] at e hm; cases e; exact hm
    | err a s1 => rw [hr] at e hm; cases e; exact hm
    | stop a => rw [hr] at e; cases e
  cases op with
  | draw o =>
    simp only [ScrOp.run, Option.map_eq_some_iff] at e
    obtain ⟨b2, e1, e2⟩ := e
    cases e2
    exact ModesStay.same rfl rfl
  | refresh =>
    change wret s (refreshCall u env.w { d with w := s.w }) = _ at e
    rw [hx] at e
    exact wret_modes rfl (fun s1 h1 => tame_refreshCall h0 h1) e
  | guard gs =>
    change wret s (guardSession u env.w gs { d with w := s.w }) = _ at e
    rw [hx] at e
    exact wret_modes rfl (fun s1 h1 => tame_session hT h0 h1) e
  | setCursorMode m =>
    refine qt ?_ e
    have h1 : Keeps (ModesKept P) (termCursorMode env m) := by
      refine modes_withWriter ?_
      have hh : ∀ c, NoMode (Out.cap c []) → Keeps (ModesKept P) (liftW (expandOpt env.w c [])) := by
        intro c hc
        unfold expandOpt
        split
        · exact modes_expand fun d hd => by rw [hc d]; exact hd
        · exact modes_liftW fun s => id
      cases m
      · exact hh .cursorNormal fun _ => rfl
      · exact hh .cursorInvisible fun _ => rfl
      · exact hh .cursorNormal fun _ => rfl
    have h2 : Keeps SameButLog (termCursorMode env m) := keeps_withWriter env (keeps_liftW _)
    intro s
    cases hp : termCursorMode env m s with
    | ok p s1 => exact ⟨(h2.ok hp).2.2.2, fun _ => h1.ok hp⟩
    | err e s1 => exact ⟨(h2.err hp).2.2.2, fun _ => h1.err hp⟩
    | stop w => trivial
  | waitEvent tm => exact qt (keeps_waitEvent env tm) e
  | readEvent tm =>
    have hm := keeps_readEvent env tm (modesStay_handleSignal env P) s
    change rret _ d (screenReadEvent env tm d s) = _ at e
    unfold screenReadEvent at e
    rw [M.bind_apply] at e
    cases hr : Mortal.readEvent env tm s with
    | err a s1 => rw [hr] at e hm; cases e; exact hm
    | stop a => rw [hr] at e; cases e
    | ok a s1 =>
      rw [hr] at e hm
      cases a with
      | none => cases e; exact hm
      | some ev =>
        cases ev with
        | resize z =>
          dsimp only at e
          cases hd : d.updateSize z with
          | none => rw [hd] at e; cases e
          | some d2 => rw [hd] at e; cases e; exact hm
        | _ => cases e; exact hm
  | readRaw n tm =>
    have hm := keeps_readRaw env n tm (modesStay_handleSignal env P) s
    change rret _ d (screenReadRaw env n tm d s) = _ at e
    unfold screenReadRaw at e
    rw [M.bind_apply] at e
    cases hr : Mortal.readRaw env n tm s with
    | err a s1 => rw [hr] at e hm; cases e; exact hm
    | stop a => rw [hr] at e; cases e
    | ok a s1 =>
      rw [hr] at e hm
      cases a with
      | nothing => cases e; exact hm
      | raw bs => cases e; exact hm
      | event ev =>
        cases ev with
        | resize z =>
          dsimp only at e
          cases hd : d.updateSize z with
          | none => rw [hd] at e; cases e
          | some d2 => rw [hd] at e; cases e; exact hm
        | _ => cases e; exact hm

theorem modes_run {u : UEnv} (hT : TableOk u) {crlf : Bool} {env : REnv} (hx : env.w = xtermDB) {x y : VLive}
    {es : List LiveEv} (h : VRun u crlf env x es y) (P : DevModes → Prop) : CleanBuf x.d.buf → ModesStay env P x.s y.s := by
  induction h with
  | done x => exact fun _ => ModesStay.same rfl rfl
  | call e l _ ih =>
    exact fun hc => Frame.trans (R := ModesStay env P) (modes_scr hT hx hc e P) (ih (tame_scr hT hx hc e).2)
  | window hz h1 h2 _ ih => exact fun hc => Frame.trans (R := ModesStay env P) (ModesStay.same rfl rfl) (ih hc)

/-- The modes that a configuration asks for. -/
def cfgModes (cfg : PrepareConfig) : DevModes :=
  ⟨cfg.enableKeypad, cfg.enableMouse, cfg.enableMouse && cfg.alwaysTrackMotion⟩

theorem pres_cfg (env : REnv) (cfg : PrepareConfig) : Pres env cfg (· = cfgModes cfg) := by
  refine ⟨fun h _ d hd => ?_, fun h _ hm d hd => ?_, fun h d hd => ?_⟩
  · subst hd; unfold cfgModes; rw [h]
  · subst hd; unfold cfgModes; rw [h, hm]; rfl
  · subst hd; unfold cfgModes; rw [h]

theorem prepared_modes {env : REnv} (hx : env.w = xtermDB) (hn : env.xterm = true) (cfg : PrepareConfig) {c : Core}
    (h : devModes c.log = ⟨false, false, false⟩) : devModes (preparedCore env cfg c).log = cfgModes cfg := by
  show devModes (c.log ++ mouseCmds env cfg ++ keypadCmds env cfg) = _
  rw [devModes_app, devModes_app, h]
  unfold mouseCmds keypadCmds cfgModes
  rw [hx, hn]
  cases cfg with
  | mk a b c d e f => cases c <;> cases d <;> cases e <;> rfl

end Mortal
