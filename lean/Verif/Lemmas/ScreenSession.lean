import Verif.Lemmas.Buffer
import Verif.Lemmas.Prepare
import Verif.Lemmas.WriterBytes
import Verif.Spec.ScreenSession

/-! # Lemmas about screen sessions -/

namespace Mortal
open Spec

variable {α β : Type}

/-! ## Calls on a screen leave modes and handlers alone -/

theorem keeps_enterM {R : US → US → Prop} [WFree R] [Ticks R] (env : REnv) : Keeps R (enterM env) := by
  unfold enterM
  split
  · exact (keeps_sysCall.bind fun _ => Keeps.getS.bind fun _ => Keeps.pure _).bind fun _ =>
      keeps_liftW _
  · exact keeps_liftW _

theorem keeps_termEnter {R : US → US → Prop} [WFree R] [Ticks R] (env : REnv) : Keeps R (termEnter env) :=
  keeps_withWriter env (keeps_enterM env)

theorem keeps_screenReadEvent {R : US → US → Prop} [Frame R] {env : REnv} {t : Option Nat} {d : SData}
    (h : Keeps R (readEvent env t)) : Keeps R (screenReadEvent env t d) := by
  refine h.bind fun r => ?_
  split
  · split
    · exact Keeps.panicM
    · exact Keeps.pure _
  · exact Keeps.pure _

theorem keeps_screenReadRaw {R : US → US → Prop} [Frame R] {env : REnv} {n : Nat} {t : Option Nat}
    {d : SData} (h : Keeps R (readRaw env n t)) : Keeps R (screenReadRaw env n t d) := by
  refine h.bind fun r => ?_
  split
  · split
    · exact Keeps.panicM
    · exact Keeps.pure _
  · exact Keeps.pure _

theorem keeps_ret {R : US → US → Prop} {f : α → URet} {m : M α} (h : Keeps R m) {s s' : US} {r : URet}
    (e : ret f (m s) = some (r, s')) : R s s' := by
  cases hm : m s with
  | ok a s2 => rw [hm] at e; cases e; exact h.ok hm
  | err y s2 => rw [hm] at e; cases e; exact h.err hm
  | stop w => rw [hm] at e; cases e

theorem keeps_rret {R : US → US → Prop} {f : α → URet} {d d' : SData} {m : M (α × SData)}
    (h : Keeps R m) {s s' : US} {r : URet} (e : rret f d (m s) = some (r, d', s')) : R s s' := by
  cases hm : m s with
  | ok a s2 => rw [hm] at e; cases e; exact h.ok hm
  | err y s2 => rw [hm] at e; cases e; exact h.err hm
  | stop w => rw [hm] at e; cases e

theorem keeps_wret {R : US → US → Prop} [WFree R] {o : Outcome Scr} {s s' : US} {d : SData} {r : URet}
    (e : wret s o = some (r, d, s')) : R s s' := by
  cases o with
  | ok x => cases e; exact WFree.updW s _
  | err y x => cases e; exact WFree.updW s _
  | stop w => cases e

theorem stays_scrOp {u : UEnv} {env : REnv} {op : ScrOp} {d d' : SData} {s s' : US} {r : URet}
    (h : op.run u env d s = some (r, d', s')) : Stays s s' := by
  cases op with
  | draw op =>
    simp only [ScrOp.run, Option.map_eq_some_iff] at h
    obtain ⟨b, _, h⟩ := h
    cases h
    exact Stays.same rfl rfl
  | refresh => exact keeps_wret h
  | guard ops => exact keeps_wret h
  | setCursorMode m =>
    simp only [ScrOp.run, Option.map_eq_some_iff] at h
    obtain ⟨⟨r1, s1⟩, h1, h⟩ := h
    cases h
    exact keeps_ret (keeps_withWriter env (keeps_liftW _)) h1
  | waitEvent t =>
    simp only [ScrOp.run, Option.map_eq_some_iff] at h
    obtain ⟨⟨r1, s1⟩, h1, h⟩ := h
    cases h
    exact keeps_ret (keeps_waitEvent env t) h1
  | readEvent t =>
    exact keeps_rret (keeps_screenReadEvent (keeps_readEvent env t (stays_handleSignal env))) h
  | readRaw n t =>
    exact keeps_rret (keeps_screenReadRaw (keeps_readRaw env n t (stays_handleSignal env))) h

theorem stays_runScr {u : UEnv} {env : REnv} : ∀ {ops : List ScrOp} {d d' : SData} {s s' : US}
    {rs : List URet}, runScr u env ops d s = some (rs, d', s') → Stays s s'
  | [], _, _, _, _, _, h => by cases h; exact Frame.refl (R := Stays) _
  | op :: ops, d, d', s, s', rs, h => by
    rw [runScr] at h
    cases h1 : op.run u env d s with
    | none => rw [h1] at h; cases h
    | some v =>
      obtain ⟨r, d1, s1⟩ := v
      rw [h1] at h
      cases h2 : runScr u env ops d1 s1 with
      | none => simp [h2] at h
      | some v =>
        obtain ⟨rs', d2, s2⟩ := v
        simp [h2] at h
        obtain ⟨_, _, rfl⟩ := h
        exact Frame.trans (R := Stays) (stays_scrOp h1) (stays_runScr h2)

/-! ## Code that does not fail when the system does not -/

/-- `m` does not fail as long as the system does not. -/
def Smooth (m : M α) : Prop :=
  ∀ s, NoFailures s → match m s with
    | .ok _ s' => NoFailures s'
    | .err _ _ => False
    | .stop _ => True

theorem Smooth.ok {m : M α} (h : Smooth m) {s s' : US} {a : α} (hs : NoFailures s)
    (e : m s = .ok a s') : NoFailures s' := by
  have := h s hs; rw [e] at this; exact this

theorem Smooth.err {m : M α} (h : Smooth m) {s s' : US} {x : IoErr} (hs : NoFailures s)
    (e : m s = .err x s') : False := by
  have := h s hs; rw [e] at this; exact this

theorem Smooth.pure (a : α) : Smooth (pure a : M α) := fun _ h => h

theorem Smooth.getS : Smooth getS := fun _ h => h

theorem Smooth.modifyS {f : US → US} (h : ∀ s, (f s).sched = s.sched ∧ (f s).w.os = s.w.os) :
    Smooth (modifyS f) := by
  intro s hs
  show NoFailures (f s)
  unfold NoFailures
  rw [(h s).1, (h s).2]
  exact hs

theorem Smooth.bind {m : M α} {f : α → M β} (h : Smooth m) (hf : ∀ a, Smooth (f a)) :
    Smooth (m >>= f) := by
  intro s hs
  rw [M.bind_apply]
  have h1 := h s hs
  cases hm : m s with
  | ok a s1 => rw [hm] at h1; exact hf a s1 h1
  | err e s1 => rw [hm] at h1; exact h1
  | stop w => trivial

theorem smooth_sysCall : Smooth sysCall := by
  intro s hs
  unfold sysCall
  rw [M.bind_apply]
  unfold tick
  cases hc : s.sched with
  | nil => trivial
  | cons st rest =>
    obtain ⟨n, hn⟩ := hs.1 st (by rw [hc]; exact List.mem_cons_self)
    dsimp only
    rw [hn]
    obtain ⟨x, sn, hd⟩ := deliverAll_eq st.before (s.advance st rest)
    rw [hd]
    exact ⟨fun a ha => hs.1 a (by rw [hc]; exact List.mem_cons_of_mem _ ha), hs.2⟩

theorem smooth_cfg (f : US → US) (h : ∀ s, (f s).sched = s.sched ∧ (f s).w.os = s.w.os) :
    Smooth (modifyS f) := Smooth.modifyS h

theorem smooth_tcgetattr : Smooth tcgetattr :=
  smooth_sysCall.bind fun _ => Smooth.getS.bind fun _ => Smooth.pure _

theorem smooth_tcsetattr (t : Termios) : Smooth (tcsetattr t) :=
  smooth_sysCall.bind fun _ => Smooth.modifyS fun _ => ⟨rfl, rfl⟩

theorem smooth_sigaction (g : Sig) (d : Disp) : Smooth (sigaction g d) :=
  smooth_sysCall.bind fun _ => Smooth.getS.bind fun _ =>
    (smooth_cfg (fun s => { s with act := s.act.set g d }) fun _ => ⟨rfl, rfl⟩).bind fun _ =>
    Smooth.pure _

/-- The same for the writer. -/
def SmoothW (f : WS → Outcome WS) : Prop :=
  ∀ w, (∀ r ∈ w.os, r = .all ∨ r = .eintr) → match f w with
    | .ok w' => ∀ r ∈ w'.os, r = .all ∨ r = .eintr
    | .err _ _ => False
    | .stop _ => True

theorem smooth_liftW {f : WS → Outcome WS} (h : SmoothW f) : Smooth (liftW f) := by
  intro s hs
  have h1 := h s.w hs.2
  unfold liftW
  cases hf : f s.w with
  | ok w => rw [hf] at h1; exact ⟨hs.1, h1⟩
  | err e w => rw [hf] at h1; exact h1
  | stop r => trivial

theorem writeData_smooth (buf : Bytes) : ∀ (os : List WriteRes) (n : Nat) (dev : Bytes),
    (∀ r ∈ os, r = .all ∨ r = .eintr) → match writeData buf os n dev with
      | .done _ os' _ r => r = none ∧ ∀ r ∈ os', r = .all ∨ r = .eintr
      | .blocked => True
  | os, n, dev, h => by
    unfold writeData
    by_cases hn : n = buf.length
    · rw [if_pos hn]; exact ⟨rfl, h⟩
    · rw [if_neg hn]
      cases os with
      | nil => trivial
      | cons r os =>
        have h' : ∀ r ∈ os, r = .all ∨ r = .eintr := fun a ha => h a (List.mem_cons_of_mem _ ha)
        rcases h r List.mem_cons_self with rfl | rfl
        · exact writeData_smooth buf os _ _ h'
        · exact writeData_smooth buf os _ _ h'
  termination_by structural os => os

theorem smoothW_flush : SmoothW flush := by
  intro w h
  have h1 := writeData_smooth w.pending w.os 0 w.dev h
  unfold flush
  cases hd : writeData w.pending w.os 0 w.dev with
  | blocked => trivial
  | done n os dev r =>
    rw [hd] at h1
    obtain ⟨rfl, h2⟩ := h1
    dsimp only
    by_cases hn : n > w.pending.length
    · rw [if_pos hn]; trivial
    · rw [if_neg hn]; exact h2

theorem SmoothW.andThen {f g : WS → Outcome WS} (hf : SmoothW f) (hg : SmoothW g) :
    SmoothW fun w => f w >>? g := by
  intro w h
  have h1 := hf w h
  cases hw : f w with
  | ok w' =>
    rw [hw] at h1
    show match f w >>? g with
      | .ok w' => ∀ r ∈ w'.os, r = .all ∨ r = .eintr
      | .err _ _ => False
      | .stop _ => True
    rw [hw]; exact hg w' h1
  | err e w' => rw [hw] at h1; exact h1.elim
  | stop r =>
    show match f w >>? g with
      | .ok w' => ∀ r ∈ w'.os, r = .all ∨ r = .eintr
      | .err _ _ => False
      | .stop _ => True
    rw [hw]; trivial

theorem smoothW_writeBytes (b : Bytes) : SmoothW (writeBytes b) := by
  refine SmoothW.andThen (f := fun s => if b.length + s.pending.length > s.capacity then flush s else .ok s)
    ?_ ?_
  · intro w h
    dsimp only
    by_cases hc : b.length + w.pending.length > w.capacity
    · rw [if_pos hc]; exact smoothW_flush w h
    · rw [if_neg hc]; exact h
  · intro w h
    dsimp only
    by_cases hl : b.length > w.capacity
    · rw [if_pos hl]
      have h1 := writeData_smooth b w.os 0 w.dev h
      cases hd : writeData b w.os 0 w.dev with
      | blocked => trivial
      | done n os dev r =>
        rw [hd] at h1
        obtain ⟨rfl, h2⟩ := h1
        exact h2
    · rw [if_neg hl]; exact h

theorem smoothW_expand {env : WEnv} {c : Cap} {ps : List Nat} {f : List Nat → Bytes × Bool}
    (hf : (f ps).2 = true) : SmoothW (expand env c ps f) := by
  intro w h
  unfold expand
  rcases hg : f ps with ⟨b, good⟩
  rw [hg] at hf
  dsimp only at hf ⊢
  subst hf
  exact h

theorem smoothW_expandOpt {env : WEnv} (hdb : GoodDB env) (c : Cap) (ps : List Nat) :
    SmoothW (expandOpt env c ps) := by
  intro w h
  unfold expandOpt
  cases hc : env.db c with
  | none => exact h
  | some f => exact smoothW_expand (hdb c f hc ps) w h

theorem smoothW_sessionEnd (env : WEnv) : SmoothW (WOp.sessionEnd.run env) := by
  intro w h
  have h1 := smoothW_flush w h
  dsimp only [WOp.run]
  cases hf : flush w with
  | ok w' => rw [hf] at h1; exact h1
  | err e w' => rw [hf] at h1; exact h1.elim
  | stop r => trivial

theorem smooth_withWriter {env : REnv} {m : M α} (h : Smooth m) : Smooth (withWriter env m) := by
  intro s hs
  have h1 := h s hs
  unfold withWriter
  cases hm : m s with
  | ok a s1 =>
    rw [hm] at h1
    have h2 : Smooth (do dropWriter env.w; pure a : M α) :=
      (smooth_liftW (smoothW_sessionEnd env.w)).bind fun _ => Smooth.pure _
    exact h2 s1 h1
  | err e s1 => rw [hm] at h1; exact h1.elim
  | stop w => trivial

theorem smooth_restoreSig (g : Sig) (o : Option Disp) : Smooth (restoreSig g o) := by
  unfold restoreSig
  cases o with
  | none => exact Smooth.pure _
  | some d => exact (smooth_sigaction g d).bind fun _ => Smooth.pure _

theorem smooth_restore {env : REnv} (hdb : GoodDB env.w) (p : PrepareState) : Smooth (restore env p) := by
  refine smooth_withWriter ?_
  refine (smooth_cfg (fun s => { s with resume := p.prevResume }) fun _ => ⟨rfl, rfl⟩).bind fun _ =>
    Smooth.bind ?_ fun _ =>
    Smooth.bind ?_ fun _ => (smooth_liftW smoothW_flush).bind fun _ => (smooth_tcsetattr _).bind fun _ =>
    (smooth_restoreSig _ _).bind fun _ => (smooth_restoreSig _ _).bind fun _ =>
    (smooth_restoreSig _ _).bind fun _ => (smooth_restoreSig _ _).bind fun _ => smooth_restoreSig _ _
  · split
    · exact (smooth_liftW (smoothW_writeBytes _)).bind fun _ => smooth_liftW (smoothW_writeBytes _)
    · exact Smooth.pure _
  · split
    · exact smooth_liftW (smoothW_expandOpt hdb _ _)
    · exact Smooth.pure _

theorem smooth_installIf (c : Bool) (g : Sig) : Smooth (installIf c g) := by
  unfold installIf
  split
  · exact (smooth_sigaction _ _).bind fun _ => Smooth.pure _
  · exact Smooth.pure _

theorem smooth_prepare {env : REnv} (hdb : GoodDB env.w) (cfg : PrepareConfig) :
    Smooth (prepare env cfg) := by
  refine smooth_withWriter ?_
  refine smooth_tcgetattr.bind fun _ => Smooth.getS.bind fun _ => (smooth_tcsetattr _).bind fun _ =>
    Smooth.bind ?_ fun _ => Smooth.bind ?_ fun _ => (smooth_liftW smoothW_flush).bind fun _ =>
    (smooth_sigaction _ _).bind fun _ => (smooth_sigaction _ _).bind fun _ =>
    (smooth_installIf _ _).bind fun _ => (smooth_installIf _ _).bind fun _ =>
    (smooth_installIf _ _).bind fun _ =>
    (smooth_cfg (fun s => { s with report := cfg.reportSignals, resume := some cfg })
      fun _ => ⟨rfl, rfl⟩).bind fun _ =>
    Smooth.pure _
  · unfold mouseOn
    split
    · unfold enableMouse
      split
      · refine (smooth_liftW (smoothW_writeBytes _)).bind fun _ => Smooth.bind ?_ fun _ => Smooth.pure _
        split
        · exact smooth_liftW (smoothW_writeBytes _)
        · exact Smooth.pure _
      · exact Smooth.pure _
    · exact Smooth.pure _
  · unfold keypadOn
    split
    · unfold enableKeypad
      split
      · rename_i f hf
        exact (smooth_liftW (smoothW_expand (hdb _ f hf []))).bind fun _ => Smooth.pure _
      · exact Smooth.pure _
    · exact Smooth.pure _

theorem smooth_termSize (env : REnv) : Smooth (termSize env) :=
  smooth_withWriter (smooth_sysCall.bind fun _ => Smooth.getS.bind fun _ => Smooth.pure _)

theorem smooth_termExit {env : REnv} (hdb : GoodDB env.w) : Smooth (termExit env) := by
  refine smooth_withWriter (smooth_liftW ?_)
  intro w h
  unfold exitScreen
  cases hc : env.w.db .exitCaMode with
  | none => exact h
  | some f => exact SmoothW.andThen (smoothW_expand (hdb _ f hc [])) smoothW_flush w h

theorem smooth_termCursorMode {env : REnv} (hdb : GoodDB env.w) (m : CursorMode) :
    Smooth (termCursorMode env m) := by
  refine smooth_withWriter (smooth_liftW ?_)
  cases m <;> exact smoothW_expandOpt hdb _ _

/-! ## The drop -/

theorem flush_empty {w w' : WS} (h : flush w = .ok w') : w'.pending = [] := by
  unfold flush at h
  have key : ∀ (os : List WriteRes) (n : Nat) (dev : Bytes), match writeData w.pending os n dev with
      | .done m _ _ none => m = w.pending.length
      | _ => True := by
    intro os
    induction os with
    | nil =>
      intro n dev
      unfold writeData
      by_cases hn : n = w.pending.length
      · rw [if_pos hn]; exact hn
      · rw [if_neg hn]; trivial
    | cons r os ih =>
      intro n dev
      unfold writeData
      by_cases hn : n = w.pending.length
      · rw [if_pos hn]; exact hn
      · rw [if_neg hn]
        cases r with
        | all => exact ih _ _
        | wrote k =>
          dsimp only
          by_cases hk : k = 0
          · rw [if_pos hk]; trivial
          · rw [if_neg hk]; exact ih _ _
        | eintr => exact ih _ _
        | fail => trivial
  have h1 := key w.os 0 w.dev
  cases hd : writeData w.pending w.os 0 w.dev with
  | blocked => rw [hd] at h; cases h
  | done n os dev r =>
    rw [hd] at h h1
    dsimp only at h
    by_cases hn : n > w.pending.length
    · rw [if_pos hn] at h; cases h
    · rw [if_neg hn] at h
      cases r with
      | none => cases h; dsimp only at h1 ⊢; rw [h1]; simp
      | some e => cases h

theorem withWriter_pending {env : REnv} {m : M α} {s s' : US} {a : α} (hm : Smooth m)
    (hs : NoFailures s) (h : withWriter env m s = .ok a s') : s'.w.pending = [] := by
  unfold withWriter at h
  have h1 := hm s hs
  cases hc : m s with
  | stop w => rw [hc] at h; cases h
  | err e s1 => rw [hc] at h1; exact h1.elim
  | ok b s1 =>
    rw [hc] at h h1
    obtain ⟨_, s2, h2, h3⟩ := M.bind_ok h
    cases h3
    obtain ⟨w, h4, rfl⟩ := liftW_ok h2
    have h5 := smoothW_flush s1.w h1.2
    dsimp only [WOp.run] at h4
    cases hf : flush s1.w with
    | ok w' => rw [hf] at h4; cases h4; exact flush_empty hf
    | err e w' => rw [hf] at h5; exact h5.elim
    | stop r => rw [hf] at h4; cases h4

theorem printErr_ok {m : M Unit} {s s' : US} (h : printErr m s = .ok () s') :
    m s = .ok () s' ∨ ∃ e, m s = .err e s' := by
  unfold printErr at h
  cases hm : m s with
  | ok a s1 => rw [hm] at h; cases h; exact Or.inl rfl
  | err e s1 => rw [hm] at h; cases h; exact Or.inr ⟨e, rfl⟩
  | stop w => rw [hm] at h; cases h

theorem screenDrop_ok {env : REnv} (hdb : GoodDB env.w) {p : PrepareState} {s s' : US}
    (hs : NoFailures s) (h : screenDrop env p s = .ok () s') :
    ∃ s1 s2, restore env p s = .ok () s1 ∧ termExit env s1 = .ok () s2 ∧
      termCursorMode env .normal s2 = .ok () s' ∧ NoFailures s1 ∧ NoFailures s2 := by
  obtain ⟨_, s2, h1, h2⟩ := M.bind_ok h
  have hsm : Smooth (do restore env p; termExit env) :=
    (smooth_restore hdb p).bind fun _ => smooth_termExit hdb
  rcases printErr_ok h1 with h1 | ⟨e, h1⟩
  · have hs2 := hsm.ok hs h1
    obtain ⟨_, s1, h3, h4⟩ := M.bind_ok h1
    rcases printErr_ok h2 with h2 | ⟨e, h2⟩
    · exact ⟨s1, s2, h3, h4, h2, (smooth_restore hdb p).ok hs h3, hs2⟩
    · exact ((smooth_termCursorMode hdb _).err hs2 h2).elim
  · exact (hsm.err hs h1).elim

theorem termExit_core {env : REnv} {s s' : US} (h : termExit env s = .ok () s') :
    core s' = { core s with
      log := s.w.log ++ if (env.w.db .exitCaMode).isSome then [.cap .exitCaMode []] else [] } := by
  obtain ⟨s1, h1, h2, _⟩ := withWriter_ok h
  rw [h2]
  obtain ⟨w, h3, rfl⟩ := liftW_ok h1
  unfold exitScreen at h3
  cases hc : env.w.db .exitCaMode with
  | none =>
    rw [hc] at h3
    cases h3
    simp [core]
  | some f =>
    rw [hc] at h3
    dsimp only at h3
    cases he : expand env.w .exitCaMode [] f s.w with
    | ok w1 =>
      rw [he] at h3
      have h4 : flush w1 = .ok w := h3
      unfold expand at he
      rcases hf : f [] with ⟨b, good⟩
      rw [hf] at he
      cases good
      · cases he
      · cases he
        unfold core
        dsimp only
        rw [flush_ok_log h4]
        rfl
    | err e w1 => rw [he] at h3; cases h3
    | stop r => rw [he] at h3; cases h3

theorem termCursorMode_core {env : REnv} {s s' : US}
    (h : termCursorMode env .normal s = .ok () s') :
    core s' = { core s with
      log := s.w.log ++ if (env.w.db .cursorNormal).isSome then [.cap .cursorNormal []] else [] } := by
  obtain ⟨s1, h1, h2, _⟩ := withWriter_ok h
  rw [h2]
  exact liftExpandOpt_ok h1

end Mortal

namespace Mortal
open Spec

/-! ## Opening -/

theorem orDrop_ok {α : Type} {m : M α} {d : M Unit} {s s' : US} {a : α}
    (h : orDrop m d s = .ok a s') : m s = .ok a s' := by
  unfold orDrop at h
  cases hm : m s with
  | ok b s1 => rw [hm] at h; exact h
  | err e s1 =>
    rw [hm] at h
    obtain ⟨_, s2, _, h2⟩ := M.bind_ok h
    cases h2
  | stop w => rw [hm] at h; cases h

theorem orDrop_err {α : Type} {m : M α} {d : M Unit} {s s' : US} {e : IoErr}
    (h : orDrop m d s = .err e s') :
    ∃ e1 s1, m s = .err e1 s1 ∧ ((∃ e2, d s1 = .err e2 s') ∨ d s1 = .ok () s') := by
  unfold orDrop at h
  cases hm : m s with
  | ok b s1 => rw [hm] at h; cases h
  | err e1 s1 =>
    rw [hm] at h
    refine ⟨e1, s1, rfl, ?_⟩
    rcases M.bind_err h with h1 | ⟨_, s2, h1, h2⟩
    · exact Or.inl ⟨e, h1⟩
    · cases h2; exact Or.inr h1
  | stop w => rw [hm] at h; cases h

theorem screenNew_ok {env : REnv} {cfg : PrepareConfig} {s s' : US} {scr : ScreenU}
    (h : screenNew env cfg s = .ok scr s') :
    ∃ sa sb, termSize env s = .ok scr.data.buf.size sa ∧ prepare env cfg sa = .ok scr.state sb ∧
      termEnter env sb = .ok () s' ∧ scr.data = SData.new scr.data.buf.size := by
  obtain ⟨z, sa, h1, h⟩ := M.bind_ok h
  obtain ⟨p, sb, h2, h⟩ := M.bind_ok h
  obtain ⟨_, sc, h3, h⟩ := M.bind_ok h
  cases h
  exact ⟨sa, sb, orDrop_ok h1, orDrop_ok h2, orDrop_ok h3, rfl⟩

theorem termSize_ok {env : REnv} {s s' : US} {z : Size} (h : termSize env s = .ok z s') :
    core s' = core s ∧ z = s'.size ∧ z = ((s.sched.head?.bind Step.resize).getD s.size) := by
  obtain ⟨s1, h1, h2, w, rfl⟩ := withWriter_ok h
  obtain ⟨_, s2, h3, h4⟩ := M.bind_ok h1
  obtain ⟨_, s3, h5, h6⟩ := M.bind_ok h4
  cases h5; cases h6
  have hc := sysCall_core s
  rw [h3] at hc
  refine ⟨h2.trans hc, rfl, ?_⟩
  unfold sysCall at h3
  obtain ⟨r, s4, h7, h8⟩ := M.bind_ok h3
  unfold tick at h7
  cases hs : s.sched with
  | nil => rw [hs] at h7; cases h7
  | cons st rest =>
    rw [hs] at h7
    cases h7
    obtain ⟨x, sn, hd⟩ := deliverAll_eq st.before (s.advance st rest)
    rw [hd] at h8
    cases hr : st.res with
    | ok n => rw [hr] at h8; cases h8; rfl
    | eintr d e =>
      rw [hr] at h8
      obtain ⟨_, s5, _, h9⟩ := M.bind_ok h8
      cases h9
    | fail => rw [hr] at h8; cases h8

theorem os_inv (env : WEnv) : Inv4 env fun w => ∀ r ∈ w.os, r = WriteRes.all ∨ r = .eintr where
  attrs _ _ _ _ h := h
  expand c ps f s _ h := by
    intro s' e
    unfold expand at e
    rcases hf : f ps with ⟨b, good⟩
    rw [hf] at e
    cases good <;> cases e <;> exact h
  flush s h := by
    intro s' e
    have := smoothW_flush s h
    cases hf : flush s with
    | ok w => rw [hf] at this e; cases e; exact this
    | err x w => rw [hf] at this; exact this.elim
    | stop r => rw [hf] at e; cases e
  write b s h := by
    intro s' e
    have := smoothW_writeBytes b s h
    cases hf : writeBytes b s with
    | ok w => rw [hf] at this e; cases e; exact this
    | err x w => rw [hf] at this; exact this.elim
    | stop r => rw [hf] at e; cases e

theorem termEnter_fine {env : REnv} {s s' : US} {e : IoErr} (hs : NoFailures s)
    (h : termEnter env s = .err e s') : NoFailures s' := by
  obtain ⟨s1, h1, _, w, rfl⟩ := withWriter_err h
  have lift : ∀ (z : Option Size) (t : US) (t' : US) (e : IoErr), NoFailures t →
      liftW (enterScreen env.w z) t = .err e t' → NoFailures t' := by
    intro z t t' e ht he
    obtain ⟨w, he1, rfl⟩ := liftW_err he
    exact ⟨ht.1, inv_enter (os_inv env.w) z t.w ht.2 w (by rw [he1]; rfl)⟩
  have hf : NoFailures s1 := by
    unfold enterM at h1
    cases ha : env.w.db .changeScrollRegion with
    | none => rw [ha] at h1; exact lift _ _ _ _ hs h1
    | some f =>
      cases hb : env.w.db .cursorHome with
      | none => rw [ha, hb] at h1; exact lift _ _ _ _ hs h1
      | some g =>
        rw [ha, hb] at h1
        have hg : Smooth getWinsize :=
          smooth_sysCall.bind fun _ => Smooth.getS.bind fun _ => Smooth.pure _
        rcases M.bind_err h1 with h2 | ⟨z, s2, h2, h3⟩
        · exact (hg.err hs h2).elim
        · exact lift _ _ _ _ (hg.ok hs h2) h3
  refine ⟨hf.1, ?_⟩
  have hw := h
  unfold termEnter withWriter at hw
  rw [h1] at hw
  obtain ⟨_, s2, h2, h3⟩ : ∃ a s2, dropWriter env.w s1 = .ok a s2 ∧ throwIo e s2 = .err e { s1 with w := w } := by
    rcases M.bind_err hw with h2 | ⟨a, s2, h2, h3⟩
    · obtain ⟨w, h4, _⟩ := liftW_err h2
      exact absurd h4 (sessionEnd_not_err _ _ _ _)
    · exact ⟨a, s2, h2, h3⟩
  have hsm : Smooth (dropWriter env.w) := smooth_liftW (smoothW_sessionEnd env.w)
  have hf2 := hsm.ok hf h2
  have : s2 = { s1 with w := w } := by injection h3
  rw [this] at hf2
  exact hf2.2

theorem altScreen_exit (log : List Out) (ps : List Nat) :
    altScreen (log ++ [.cap .exitCaMode ps]) = false := by
  unfold altScreen
  rw [List.foldl_append]
  rfl

theorem altScreen_other (log : List Out) : altScreen (log ++ [.cap .cursorNormal []]) = altScreen log := by
  unfold altScreen
  rw [List.foldl_append]
  rfl

theorem cursorMode_normal (log : List Out) :
    cursorModeOf (log ++ [.cap .cursorNormal []]) = some .normal := by
  unfold cursorModeOf
  rw [List.foldl_append]
  rfl

/-- What the drop of a screen does when nothing fails. -/
theorem dropped {env : REnv} {cfg : PrepareConfig} {p : PrepareState} {s0 s1 s2 s3 : US}
    (hdb : GoodDB env.w) (hx : (env.w.db .exitCaMode).isSome)
    (h1 : prepare env cfg s0 = .ok p s1) (h2 : s2.act = s1.act) (hs : NoFailures s2)
    (h3 : screenDrop env p s2 = .ok () s3) :
    (s3.tio = s0.tio ∧ s3.act = s0.act ∧ s3.resume = s0.resume) ∧
    altScreen s3.w.log = false ∧
    ((env.w.db .cursorNormal).isSome → cursorModeOf s3.w.log = some .normal) ∧
    s3.w.pending = [] := by
  obtain ⟨sa, sb, k1, k2, k3, _, n2⟩ := screenDrop_ok hdb hs h3
  obtain ⟨b1, b2, b3⟩ := balanced_nest h1 h2 k1
  have c1 := termExit_core k2
  have c2 := termCursorMode_core k3
  refine ⟨⟨?_, ?_, ?_⟩, ?_, ?_, ?_⟩
  · exact (core_tio c2).trans ((core_tio c1).trans b1)
  · exact (core_act c2).trans ((core_act c1).trans b2)
  · exact (core_resume c2).trans ((core_resume c1).trans b3)
  · have e1 := core_log c1
    have e2 := core_log c2
    dsimp only at e1 e2
    rw [if_pos hx] at e1
    rw [e2]
    split
    · rw [altScreen_other, e1]; exact altScreen_exit _ _
    · rw [List.append_nil, e1]; exact altScreen_exit _ _
  · intro hn
    have e2 := core_log c2
    dsimp only at e2
    rw [if_pos hn] at e2
    rw [e2]
    exact cursorMode_normal _
  · refine withWriter_pending ?_ n2 k3
    refine smooth_liftW ?_
    exact smoothW_expandOpt hdb _ _

theorem updateSize_resized {d d' : SData} {z : Size} (h : d.updateSize z = some d')
    (hg : GridOk d.buf) (hz : GoodSize z) : ResizedTo d.buf d'.buf z := by
  obtain ⟨b', e, -, h0, h1, h2, h3, h4, -, g⟩ :=
    resize_inv (b := d.buf) ⟨hg.size, hg.len, hg.backLen, hg.text⟩ hz
  unfold SData.updateSize at h
  rw [e] at h
  cases h
  refine ⟨h0, h1, by rw [h2, h3, h4], fun p hp => ?_⟩
  unfold cellAt
  dsimp only
  rw [h0, g _ _ hp.1 hp.2]
  rfl

end Mortal
