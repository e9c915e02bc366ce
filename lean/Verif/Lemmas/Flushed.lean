import Verif.Lemmas.Api
import Verif.Lemmas.Prepare
import Verif.Lemmas.LocksWriter
import Verif.Lemmas.ScreenSession

/-! # Calls leave no output behind -/

namespace Mortal
open Spec

/-- The device goes on taking what it is given. -/
def Takes (s s' : US) : Prop := TakesAll s.w.os → TakesAll s'.w.os

/-- And what was passed on before stays so. -/
def Flushed (s s' : US) : Prop :=
  TakesAll s.w.os → TakesAll s'.w.os ∧ (s.w.pending = [] → s'.w.pending = [])

theorem Takes.same {s s' : US} (h : s'.w = s.w) : Takes s s' := by unfold Takes; rw [h]; exact id

theorem Flushed.same {s s' : US} (h : s'.w = s.w) : Flushed s s' := by
  unfold Flushed; rw [h]; exact fun x => ⟨x, id⟩

instance : ReadFree Takes where
  refl _ := Takes.same rfl
  trans h1 h2 x := h2 (h1 x)
  dl s g := by unfold deliver; split <;> exact Takes.same rfl
  sc _ _ _ _ := Takes.same rfl
  wt _ _ := Takes.same rfl
  clr _ := Takes.same rfl
  inp _ _ _ _ := Takes.same rfl

instance : ReadFree Flushed where
  refl _ := Flushed.same rfl
  trans h1 h2 x := ⟨(h2 (h1 x).1).1, fun y => (h2 (h1 x).1).2 ((h1 x).2 y)⟩
  dl s g := by unfold deliver; split <;> exact Flushed.same rfl
  sc _ _ _ _ := Flushed.same rfl
  wt _ _ := Flushed.same rfl
  clr _ := Flushed.same rfl
  inp _ _ _ _ := Flushed.same rfl

theorem takesK_liftW {f : WS → Outcome WS} (hf : ∀ w, TakesAll w.os → Always (f w) fun w => TakesAll w.os) :
    Keeps Takes (liftW f) := by
  intro s
  unfold liftW
  cases hc : f s.w with
  | ok w => exact fun h => hf s.w h w (by rw [hc]; rfl)
  | err e w => exact fun h => hf s.w h w (by rw [hc]; rfl)
  | stop r => trivial

/-- The release of the write lock. -/
theorem dropWriter_empties (env : WEnv) (s s' : US) (a : Unit) (h : dropWriter env s = .ok a s')
    (ht : TakesAll s.w.os) : TakesAll s'.w.os ∧ s'.w.pending = [] := by
  unfold dropWriter liftW at h
  cases hc : WOp.sessionEnd.run env s.w with
  | ok w =>
    rw [hc] at h
    cases h
    exact ⟨inv_run (takes_inv env) .sessionEnd s.w ht w (by rw [hc]; rfl), release_empties ht hc⟩
  | err e w => exact absurd hc (sessionEnd_not_err _ _ _ _)
  | stop r => rw [hc] at h; cases h

theorem flushedK_withWriter {α : Type} {env : REnv} {m : M α} (hm : Keeps Takes m) :
    Keeps Flushed (withWriter env m) := by
  intro s
  have h1 := hm s
  unfold withWriter
  cases hc : m s with
  | ok a s1 =>
    rw [hc] at h1
    dsimp only
    rw [M.bind_apply]
    cases hd : dropWriter env.w s1 with
    | ok x s2 => exact fun ht => ⟨(dropWriter_empties _ _ _ _ hd (h1 ht)).1,
        fun _ => (dropWriter_empties _ _ _ _ hd (h1 ht)).2⟩
    | err e s2 =>
      exfalso
      unfold dropWriter liftW at hd
      cases hc : WOp.sessionEnd.run env.w s1.w with
      | ok w => rw [hc] at hd; cases hd
      | err e w => exact absurd hc (sessionEnd_not_err _ _ _ _)
      | stop r => rw [hc] at hd; cases hd
    | stop r => trivial
  | err e s1 =>
    rw [hc] at h1
    dsimp only
    rw [M.bind_apply]
    cases hd : dropWriter env.w s1 with
    | ok x s2 => exact fun ht => ⟨(dropWriter_empties _ _ _ _ hd (h1 ht)).1,
        fun _ => (dropWriter_empties _ _ _ _ hd (h1 ht)).2⟩
    | err e s2 =>
      exfalso
      unfold dropWriter liftW at hd
      cases hc : WOp.sessionEnd.run env.w s1.w with
      | ok w => rw [hc] at hd; cases hd
      | err e w => exact absurd hc (sessionEnd_not_err _ _ _ _)
      | stop r => rw [hc] at hd; cases hd
    | stop r => trivial
  | stop w => trivial

theorem takesK_write (env : WEnv) (b : Bytes) : Keeps Takes (liftW (writeBytes b)) :=
  takesK_liftW fun w h => (takes_inv env).write b w h

theorem takesK_flush : Keeps Takes (liftW flush) :=
  takesK_liftW fun _ h => (flush_takes h).1

theorem takesK_sigaction (g : Sig) (d : Disp) : Keeps Takes (sigaction g d) := by
  refine keeps_sysCall.bind fun _ => Keeps.getS.bind fun _ =>
    (Keeps.modifyS ?_).bind fun _ => Keeps.pure _
  exact fun _ => Takes.same rfl

theorem takesK_installIf (c : Bool) (g : Sig) : Keeps Takes (installIf c g) := by
  unfold installIf
  split
  · exact (takesK_sigaction _ _).bind fun _ => Keeps.pure _
  · exact Keeps.pure _

theorem takesK_mouseOn (env : REnv) (cfg : PrepareConfig) : Keeps Takes (mouseOn env cfg) := by
  unfold mouseOn
  split
  · unfold enableMouse
    split
    · refine (takesK_write env.w _).bind fun _ => Keeps.bind ?_ fun _ => Keeps.pure _
      split
      · exact takesK_write env.w _
      · exact Keeps.pure _
    · exact Keeps.pure _
  · exact Keeps.pure _

theorem takesK_keypadOn (env : REnv) (cfg : PrepareConfig) : Keeps Takes (keypadOn env cfg) := by
  unfold keypadOn
  split
  · unfold enableKeypad
    split
    · rename_i f hf
      exact (takesK_liftW fun w h => (takes_inv env.w).expand _ _ _ w hf h).bind fun _ => Keeps.pure _
    · exact Keeps.pure _
  · exact Keeps.pure _

theorem flushedK_prepare (env : REnv) (cfg : PrepareConfig) : Keeps Flushed (prepare env cfg) := by
  refine flushedK_withWriter ?_
  refine (keeps_sysCall.bind fun _ => Keeps.getS.bind fun _ => Keeps.pure _).bind fun _ =>
    Keeps.getS.bind fun _ =>
    (keeps_sysCall.bind fun _ => Keeps.modifyS ?_).bind fun _ =>
    (takesK_mouseOn env cfg).bind fun _ => (takesK_keypadOn env cfg).bind fun _ =>
    takesK_flush.bind fun _ =>
    (takesK_sigaction _ _).bind fun _ => (takesK_sigaction _ _).bind fun _ =>
    (takesK_installIf _ _).bind fun _ => (takesK_installIf _ _).bind fun _ =>
    (takesK_installIf _ _).bind fun _ => (Keeps.modifyS ?_).bind fun _ => Keeps.pure _
  · exact fun _ => Takes.same rfl
  · exact fun _ => Takes.same rfl

theorem takesK_restoreSig (g : Sig) (o : Option Disp) : Keeps Takes (restoreSig g o) := by
  unfold restoreSig
  split
  · exact (takesK_sigaction _ _).bind fun _ => Keeps.pure _
  · exact Keeps.pure _

theorem flushedK_restore (env : REnv) (st : PrepareState) : Keeps Flushed (restore env st) := by
  refine flushedK_withWriter ?_
  unfold restoreWithLock
  refine (Keeps.modifyS ?_).bind fun _ => Keeps.bind ?_ fun _ => Keeps.bind ?_ fun _ =>
    takesK_flush.bind fun _ => (keeps_sysCall.bind fun _ => Keeps.modifyS ?_).bind fun _ =>
    (takesK_restoreSig _ _).bind fun _ => (takesK_restoreSig _ _).bind fun _ =>
    (takesK_restoreSig _ _).bind fun _ => (takesK_restoreSig _ _).bind fun _ => takesK_restoreSig _ _
  · exact fun _ => Takes.same rfl
  · split
    · exact (takesK_write env.w _).bind fun _ => takesK_write env.w _
    · exact Keeps.pure _
  · split
    · exact takesK_liftW fun w h => inv_expandOpt (takes_inv env.w) _ _ w h
    · exact Keeps.pure _
  · exact fun _ => Takes.same rfl

theorem flushedK_termSize (env : REnv) : Keeps Flushed (termSize env) :=
  flushedK_withWriter (keeps_sysCall.bind fun _ => Keeps.getS.bind fun _ => Keeps.pure _)

theorem flushedK_handle (env : REnv) (sig : Signal) : Keeps Flushed (handleSignal env sig) := by
  have report : ∀ sig : Signal, Keeps Flushed (do
      if (← getS).report.contains sig then pure (some (Event.signal sig)) else pure none) := by
    intro sig
    refine Keeps.getS.bind fun s => ?_
    split <;> exact Keeps.pure _
  cases sig
  case «continue» =>
    refine Keeps.bind ?_ fun _ => report _
    unfold resumeM
    refine Keeps.getS.bind fun s => ?_
    split
    · exact (flushedK_prepare env _).bind fun _ => Keeps.pure _
    · exact Keeps.pure _
  case resize => exact (flushedK_termSize env).bind fun _ => Keeps.pure _
  all_goals exact report _

theorem flushedK_enter (env : REnv) : Keeps Flushed (termEnter env) := by
  refine flushedK_withWriter ?_
  unfold enterM
  split
  · exact (keeps_sysCall.bind fun _ => Keeps.getS.bind fun _ => Keeps.pure _).bind fun _ =>
      takesK_liftW fun w h => inv_enter (takes_inv env.w) _ w h
  · exact takesK_liftW fun w h => inv_enter (takes_inv env.w) _ w h

theorem flushedK_exit (env : REnv) : Keeps Flushed (termExit env) :=
  flushedK_withWriter (takesK_liftW fun w h => always_writes (takes_inv env.w) .exit w h)

theorem flushedK_cursorMode (env : REnv) (m : CursorMode) : Keeps Flushed (termCursorMode env m) :=
  flushedK_withWriter (takesK_liftW fun w h => inv_run (takes_inv env.w) (.setCursorMode m) w h)

theorem flushedK_printErr {m : M Unit} (h : Keeps Flushed m) : Keeps Flushed (printErr m) := by
  intro s
  have h1 := h s
  unfold printErr
  cases hc : m s with
  | ok a s1 => rw [hc] at h1; exact h1
  | err e s1 => rw [hc] at h1; exact h1
  | stop w => trivial

theorem flushedK_termDrop (env : REnv) : Keeps Flushed (termDrop env) :=
  flushedK_printErr (flushedK_cursorMode env _)

theorem flushedK_screenDrop (env : REnv) (st : PrepareState) : Keeps Flushed (screenDrop env st) :=
  (flushedK_printErr ((flushedK_restore env st).bind fun _ => flushedK_exit env)).bind fun _ =>
    flushedK_termDrop env

theorem flushedK_orDrop {α : Type} {m : M α} {d : M Unit} (h : Keeps Flushed m) (hd : Keeps Flushed d) :
    Keeps Flushed (orDrop m d) := by
  intro s
  have h1 := h s
  unfold orDrop
  cases hc : m s with
  | ok a s1 => rw [hc] at h1; exact h1
  | err e s1 =>
    rw [hc] at h1
    have h2 := (hd.bind fun _ => Keeps.throwIo (α := α) e : Keeps Flushed (do d; throwIo e : M α)) s1
    dsimp only
    generalize (do d; throwIo e : M α) s1 = r at h2 ⊢
    cases r with
    | ok b s2 => exact Frame.trans (R := Flushed) h1 h2
    | err e s2 => exact Frame.trans (R := Flushed) h1 h2
    | stop w => trivial
  | stop w => trivial

theorem flushedK_screenNew (env : REnv) (cfg : PrepareConfig) : Keeps Flushed (screenNew env cfg) :=
  (flushedK_orDrop (flushedK_termSize env) (flushedK_termDrop env)).bind fun _ =>
  (flushedK_orDrop (flushedK_prepare env cfg) (flushedK_termDrop env)).bind fun _ =>
  (flushedK_orDrop (flushedK_enter env) (flushedK_screenDrop env _)).bind fun _ => Keeps.pure _

theorem flushedK_readEvent (env : REnv) (t : Option Nat) : Keeps Flushed (readEvent env t) :=
  keeps_readEvent env t (flushedK_handle env)

theorem flushedK_readRaw (env : REnv) (n : Nat) (t : Option Nat) : Keeps Flushed (readRaw env n t) :=
  keeps_readRaw env n t (flushedK_handle env)

theorem keeps_panicM {α : Type} {R : US → US → Prop} : Keeps R (panicM : M α) := fun _ => trivial

theorem flushedK_screenReadEvent (env : REnv) (t : Option Nat) (d : SData) :
    Keeps Flushed (screenReadEvent env t d) := by
  refine (flushedK_readEvent env t).bind fun r => ?_
  split
  · split
    · exact keeps_panicM
    · exact Keeps.pure _
  · exact Keeps.pure _

theorem flushedK_screenReadRaw (env : REnv) (n : Nat) (t : Option Nat) (d : SData) :
    Keeps Flushed (screenReadRaw env n t d) := by
  refine (flushedK_readRaw env n t).bind fun r => ?_
  split
  · split
    · exact keeps_panicM
    · exact Keeps.pure _
  · exact Keeps.pure _

/-! ## The screen's own writing -/

/-- What a call on the screen leaves. -/
def Emptied (o : Outcome Scr) : Prop := ∀ x, o.state = some x → TakesAll x.w.os ∧ x.w.pending = []

theorem emptied_end {env : WEnv} {s : Scr} (h : TakesAll s.w.os) :
    Emptied (s.onW (WOp.sessionEnd.run env)) := by
  intro x hx
  unfold Scr.onW at hx
  cases hc : WOp.sessionEnd.run env s.w with
  | ok w =>
    rw [hc] at hx
    cases hx
    exact ⟨inv_run (takes_inv env) .sessionEnd s.w h w (by rw [hc]; rfl), release_empties h hc⟩
  | err e w => exact absurd hc (sessionEnd_not_err _ _ _ _)
  | stop r => rw [hc] at hx; cases hx

theorem emptied_drop {u : UEnv} {env : WEnv} {s : Scr} (h : TakesAll s.w.os) : Emptied (guardDrop u env s) := by
  have h1 := always_refresh (u := u) (takes_inv env) s h
  unfold guardDrop
  cases hc : s.refresh u env with
  | ok x => exact emptied_end (h1 x (by rw [hc]; rfl))
  | err e x => exact emptied_end (h1 x (by rw [hc]; rfl))
  | stop r => exact fun x hx => by cases hx

theorem emptied_refresh {u : UEnv} {env : WEnv} {s : Scr} (h : TakesAll s.w.os) :
    Emptied (refreshCall u env s) := by
  have h1 := always_refresh (u := u) (takes_inv env) s h
  unfold refreshCall
  cases hc : s.refresh u env with
  | ok x => exact emptied_drop (h1 x (by rw [hc]; rfl))
  | err e x =>
    have h2 := emptied_drop (u := u) (env := env) (h1 x (by rw [hc]; rfl))
    dsimp only
    cases hd : guardDrop u env x with
    | ok y => intro z hz; cases hz; exact h2 y (by rw [hd]; rfl)
    | err e y => intro z hz; cases hz; exact h2 y (by rw [hd]; rfl)
    | stop r => intro z hz; cases hz
  | stop r => exact fun x hx => by cases hx

theorem gop_takes {u : UEnv} {env : WEnv} (op : GOp) {s : Scr} (h : TakesAll s.w.os) :
    AlwaysS (op.run u env s) fun w => TakesAll w.os := by
  cases op with
  | draw op =>
    unfold GOp.run
    dsimp only
    cases op.run u s.buf with
    | none => exact AlwaysS.stop
    | some b => exact AlwaysS.ok h
  | refresh => exact always_refresh (takes_inv env) s h
  | setCursorMode m => exact AlwaysS.onW (inv_run (takes_inv env) (.setCursorMode m) s.w h)

theorem emptied_session {u : UEnv} {env : WEnv} (ops : List GOp) {s : Scr} (h : TakesAll s.w.os) :
    Emptied (guardSession u env ops s) := by
  induction ops generalizing s with
  | nil => exact emptied_drop h
  | cons op ops ih =>
    have h1 := gop_takes (u := u) (env := env) op h
    unfold guardSession
    cases hc : op.run u env s with
    | ok x => exact ih (h1 x (by rw [hc]; rfl))
    | err e x => exact ih (h1 x (by rw [hc]; rfl))
    | stop r => exact fun x hx => by cases hx

/-! ## Histories -/

theorem flushed_ret {α : Type} {m : M α} (hm : Keeps Flushed m) {f : α → URet} {s s' : US} {r : URet}
    (h : ret f (m s) = some (r, s')) : Flushed s s' := by
  have h1 := hm s
  cases hc : m s with
  | ok a x => rw [hc] at h h1; cases h; exact h1
  | err e x => rw [hc] at h h1; cases h; exact h1
  | stop w => rw [hc] at h; cases h

theorem flushed_rret {α : Type} {m : M (α × SData)} (hm : Keeps Flushed m) {f : α → URet} {d d' : SData}
    {s s' : US} {r : URet} (h : rret f d (m s) = some (r, d', s')) : Flushed s s' := by
  have h1 := hm s
  cases hc : m s with
  | ok a x => rw [hc] at h h1; cases h; exact h1
  | err e x => rw [hc] at h h1; cases h; exact h1
  | stop w => rw [hc] at h; cases h

theorem flushed_wret {o : Outcome Scr} {d' : SData} {s s' : US} {r : URet}
    (ho : TakesAll s.w.os → Emptied o) (h : wret s o = some (r, d', s')) : Flushed s s' := by
  intro ht
  have h1 := ho ht
  cases o with
  | ok x => cases h; exact ⟨(h1 x rfl).1, fun _ => (h1 x rfl).2⟩
  | err e x => cases h; exact ⟨(h1 x rfl).1, fun _ => (h1 x rfl).2⟩
  | stop w => cases h

theorem flushed_scr {u : UEnv} {env : REnv} (op : ScrOp) {d d' : SData} {s s' : US} {r : URet}
    (h : op.run u env d s = some (r, d', s')) : Flushed s s' := by
  cases op with
  | draw op =>
    unfold ScrOp.run at h
    dsimp only at h
    cases hb : op.run u d.buf with
    | none => rw [hb] at h; cases h
    | some b => rw [hb] at h; cases h; exact Flushed.same rfl
  | refresh => exact flushed_wret (fun ht => emptied_refresh ht) h
  | guard ops => exact flushed_wret (fun ht => emptied_session ops ht) h
  | setCursorMode m =>
    unfold ScrOp.run at h
    dsimp only at h
    cases hc : ret (fun _ => URet.unit) (termCursorMode env m s) with
    | none => rw [hc] at h; cases h
    | some x => rw [hc] at h; cases h; exact flushed_ret (flushedK_cursorMode env m) hc
  | waitEvent t =>
    unfold ScrOp.run at h
    dsimp only at h
    cases hc : ret URet.flag (waitEvent env t s) with
    | none => rw [hc] at h; cases h
    | some x => rw [hc] at h; cases h; exact flushed_ret (keeps_waitEvent env t) hc
  | readEvent t => exact flushed_rret (flushedK_screenReadEvent env t d) h
  | readRaw n t => exact flushed_rret (flushedK_screenReadRaw env n t d) h

theorem flushed_runScr {u : UEnv} {env : REnv} (ops : List ScrOp) {d d' : SData} {s s' : US}
    {rs : List URet} (h : runScr u env ops d s = some (rs, d', s')) : Flushed s s' := by
  induction ops generalizing d s rs with
  | nil => cases h; exact Flushed.same rfl
  | cons op ops ih =>
    unfold runScr at h
    cases hc : op.run u env d s with
    | none => rw [hc] at h; cases h
    | some x =>
      obtain ⟨r, d1, s1⟩ := x
      rw [hc] at h
      simp only [Option.bind_eq_bind, Option.bind_some] at h
      cases hd : runScr u env ops d1 s1 with
      | none => rw [hd] at h; cases h
      | some y =>
        obtain ⟨rs', d2, s2⟩ := y
        rw [hd] at h
        cases h
        exact Frame.trans (R := Flushed) (flushed_scr op hc) (ih hd)

theorem flushed_op {env : REnv} (op : UOp) (hop : ∀ w, op ≠ .write w) {st st' : List PrepareState} {s s' : US}
    {r : URet} (h : UOp.run env st s op = some (r, st', s')) : Flushed s s' := by
  cases op with
  | prepare cfg =>
    have h1 := flushedK_prepare env cfg s
    unfold UOp.run at h
    dsimp only at h
    cases hc : prepare env cfg s with
    | ok p x => rw [hc] at h h1; cases h; exact h1
    | err e x => rw [hc] at h h1; cases h; exact h1
    | stop w => rw [hc] at h; cases h
  | restore =>
    unfold UOp.run at h
    cases st with
    | nil => cases h; exact Flushed.same rfl
    | cons p st =>
      dsimp only at h
      cases hc : ret (fun _ => URet.unit) (restore env p s) with
      | none => rw [hc] at h; cases h
      | some x => rw [hc] at h; cases h; exact flushed_ret (flushedK_restore env p) hc
  | waitEvent t =>
    unfold UOp.run at h
    dsimp only at h
    cases hc : ret URet.flag (waitEvent env t s) with
    | none => rw [hc] at h; cases h
    | some x => rw [hc] at h; cases h; exact flushed_ret (keeps_waitEvent env t) hc
  | readEvent t =>
    unfold UOp.run at h
    dsimp only at h
    cases hc : ret URet.event (readEvent env t s) with
    | none => rw [hc] at h; cases h
    | some x => rw [hc] at h; cases h; exact flushed_ret (flushedK_readEvent env t) hc
  | readRaw n t =>
    unfold UOp.run at h
    dsimp only at h
    cases hc : ret InRes.ret (readRaw env n t s) with
    | none => rw [hc] at h; cases h
    | some x => rw [hc] at h; cases h; exact flushed_ret (flushedK_readRaw env n t) hc
  | write w => exact absurd rfl (hop w)

theorem flushed_runU {env : REnv} (ops : List UOp) (hops : ∀ w, .write w ∉ ops) {st st' : List PrepareState}
    {s s' : US} {rs : List URet} (h : runU env ops st s = some (rs, st', s')) : Flushed s s' := by
  induction ops generalizing st s rs with
  | nil => cases h; exact Flushed.same rfl
  | cons op ops ih =>
    unfold runU at h
    cases hc : UOp.run env st s op with
    | none => rw [hc] at h; cases h
    | some x =>
      obtain ⟨r, st1, s1⟩ := x
      rw [hc] at h
      simp only [Option.bind_eq_bind, Option.bind_some] at h
      cases hd : runU env ops st1 s1 with
      | none => rw [hd] at h; cases h
      | some y =>
        obtain ⟨rs', st2, s2⟩ := y
        rw [hd] at h
        cases h
        exact Frame.trans (R := Flushed)
          (flushed_op op (fun w e => hops w (by simp [e])) hc)
          (ih (fun w hw => hops w (by simp [hw])) hd)

end Mortal
