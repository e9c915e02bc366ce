import Verif.Lemmas.DirectWin
import Verif.Spec.WinRefused
import Verif.Spec.WinSignal

/-! # Errors and the calls that a Windows console refuses -/

namespace Mortal
open Spec

/-- Code that returns an error exactly when the console refuses a call, and then at once. -/
def Honest {α : Type} (m : WM α) : Prop :=
  ∀ s, (∀ a s', m s = .ok a s' → ∃ D, s'.log = s.log ++ D ∧ D.countP refused = 0) ∧
    (∀ e s', m s = .err e s' → ∃ D ev, s'.log = s.log ++ (D ++ [ev]) ∧ D.countP refused = 0 ∧
      refused ev = true)

theorem Honest.bind {α β : Type} {m : WM α} {f : α → WM β} (h : Honest m) (hf : ∀ a, Honest (f a)) :
    Honest (m >>= f) := by
  intro s
  rw [sm_bind]
  cases hm : m s with
  | stop w => exact ⟨fun _ _ h => (by cases h), fun _ _ h => (by cases h)⟩
  | err e s1 =>
    refine ⟨fun _ _ h => (by cases h), ?_⟩
    rintro e' s' ⟨⟩
    exact (h s).2 _ _ hm
  | ok a s1 =>
    obtain ⟨D, d1, d2⟩ := (h s).1 a s1 hm
    refine ⟨fun b s' hb => ?_, fun e s' hb => ?_⟩
    · obtain ⟨D', d3, d4⟩ := (hf a s1).1 b s' hb
      exact ⟨D ++ D', by rw [d3, d1, List.append_assoc], by rw [List.countP_append, d2, d4]⟩
    · obtain ⟨D', c, d3, d4, d5⟩ := (hf a s1).2 e s' hb
      exact ⟨D ++ D', c, by rw [d3, d1]; simp only [List.append_assoc],
        by rw [List.countP_append, d2, d4], d5⟩

theorem Honest.pure {α : Type} (a : α) : Honest (pure a : WM α) := by
  intro s
  refine ⟨?_, fun _ _ h => (by cases h)⟩
  rintro b s' ⟨⟩
  exact ⟨[], by simp, rfl⟩

theorem honest_get : Honest (SM.get : WM WinSt) := by
  intro s
  refine ⟨?_, fun _ _ h => (by cases h)⟩
  rintro b s' ⟨⟩
  exact ⟨[], by simp, rfl⟩

theorem honest_modify {f : WinSt → WinSt} (hf : ∀ s, (f s).log = s.log) : Honest (SM.modify f) := by
  intro s
  refine ⟨?_, fun _ _ h => (by cases h)⟩
  rintro b s' ⟨⟩
  exact ⟨[], by simp [hf], rfl⟩

theorem honest_halt {α : Type} (w : Stop) : Honest (SM.halt w : WM α) := fun _ => ⟨fun _ _ h => (by cases h), fun _ _ h => (by cases h)⟩

theorem honest_ofPanics {α : Type} (y : Panics α) : Honest (SM.ofPanics y : WM α) := by
  cases y with
  | none => exact honest_halt _
  | some a => exact Honest.pure a

theorem haps_not_refused {evs : List WEv} (h : ∀ e ∈ evs, IsHap e) : evs.countP refused = 0 := by
  rw [List.countP_eq_zero]
  intro e he
  have := h e he
  cases e <;> first | exact this.elim | (intro hh; cases hh)

/-- A call, and what is done with its answer: an error if the console refuses it. -/
theorem honest_call {α : Type} (c : ConCall) (f : Ans → WM α) (hfail : f .fail = SM.throw .os)
    (hr : refused (.call c .fail) = true)
    (hf : ∀ a, a ≠ .fail → Honest (f a)) : Honest (conCall c >>= f) := by
  intro s
  rw [sm_bind]
  cases hc : conCall c s with
  | stop w => exact ⟨fun _ _ h => (by cases h), fun _ _ h => (by cases h)⟩
  | err e s1 => exact absurd hc conCall_not_err
  | ok a s1 =>
    obtain ⟨evs, h1, h2, -⟩ := conCall_ok hc
    have h3 := haps_not_refused h1
    by_cases ha : a = .fail
    · subst ha
      dsimp only
      rw [hfail]
      refine ⟨fun _ _ h => (by cases h), ?_⟩
      rintro e s' ⟨⟩
      exact ⟨evs, _, by rw [h2, List.append_assoc], h3, hr⟩
    · have h4 : (evs ++ [WEv.call c a]).countP refused = 0 := by
        rw [List.countP_append, h3]
        cases a <;> first | exact absurd rfl ha | (cases c <;> rfl)
      refine ⟨fun b s' hb => ?_, fun e s' hb => ?_⟩
      · obtain ⟨D', d3, d4⟩ := (hf a ha s1).1 b s' hb
        exact ⟨(evs ++ [.call c a]) ++ D', by rw [d3, h2]; simp only [List.append_assoc],
          by rw [List.countP_append, h4, d4]⟩
      · obtain ⟨D', c', d3, d4, d5⟩ := (hf a ha s1).2 e s' hb
        exact ⟨(evs ++ [.call c a]) ++ D', c', by rw [d3, h2]; simp only [List.append_assoc],
          by rw [List.countP_append, h4, d4], d5⟩

theorem honest_boolCall (c : ConCall) (hr : refused (.call c .fail) = true) : Honest (boolCall c) := by
  refine honest_call c _ rfl hr fun a ha => ?_
  cases a <;> first | exact absurd rfl ha | exact Honest.pure _ | exact honest_halt _

theorem honest_consoleInfo (h : Nat) : Honest (consoleInfo h) := by
  refine honest_call _ _ rfl rfl fun a ha => ?_
  cases a <;> first | exact absurd rfl ha | exact Honest.pure _ | exact honest_halt _

theorem honest_writeLoop (h : Nat) : ∀ (f : Nat) (buf : List (BitVec 16)), Honest (writeLoop h f buf)
  | 0, buf => by
    unfold writeLoop
    split
    · exact honest_halt _
    · exact Honest.pure _
  | f + 1, buf => by
    unfold writeLoop
    split
    · refine honest_call _ _ rfl rfl fun a ha => ?_
      cases a <;> first | exact absurd rfl ha | exact honest_writeLoop h f _ | exact honest_halt _
    · exact Honest.pure _

theorem honest_writeStr (x : List Char) : Honest (winWriteStr x) :=
  honest_get.bind fun _ => honest_writeLoop _ _ _

/-- Code made of such calls. -/
macro "honest_tac" : tactic =>
  `(tactic| repeat' (first
    | exact Honest.pure _ | exact honest_get | exact honest_ofPanics _ | exact honest_boolCall _ rfl
    | exact honest_halt _ | exact honest_consoleInfo _ | exact honest_modify (fun _ => rfl)
    | refine Honest.bind ?_ fun _ => ?_ | split))

theorem honest_setAttributes (t : WTerm) (th : Theme) : Honest (winSetAttributes t th) := by
  unfold winSetAttributes updateAttrs; honest_tac

theorem honest_attrOp (t : WTerm) (op : AttrOp) : Honest (op.run t) := by
  intro s
  rw [attrOp_eq]
  exact honest_setAttributes t _ s

theorem honest_win (t : WTerm) (op : TOp) : Honest (op.win t) := by
  cases ha : TOp.attr? op with
  | some a => rw [attr?_run ha]; exact honest_attrOp t a
  | none =>
    cases op <;> first | (cases ha; done) | skip
    case write x => exact honest_writeStr x
    case styled x text =>
      exact Honest.bind (honest_setAttributes t x) fun _ => Honest.bind (honest_writeStr text) fun _ =>
        honest_attrOp t .clear
    case clearScreen =>
      show Honest (winClearScreen t)
      unfold winClearScreen clearArea moveAbs moveWindow SM.when; honest_tac
    case clearToLineEnd => show Honest (winClearToLineEnd t); unfold winClearToLineEnd clearArea; honest_tac
    case clearToScreenEnd =>
      show Honest (winClearToScreenEnd t); unfold winClearToScreenEnd clearArea; honest_tac
    case move d n =>
      have : ∀ off, Honest (moveRel off) := by intro off; unfold moveRel moveAbs; honest_tac
      cases d <;> exact this _
    case firstColumn => show Honest winFirstColumn; unfold winFirstColumn moveAbs; honest_tac
    case moveTo x => show Honest (moveAbs _); unfold moveAbs; honest_tac
    case cursorMode m => show Honest (winCursorMode m); unfold winCursorMode; honest_tac
    case flush => exact Honest.pure _
    case release => exact Honest.pure _

theorem trace_honest (t : WTerm) : ∀ (ops : List TOp) (s s' : WinSt) (tr : List (TOp × Bool)),
    traceWin t ops s = some (tr, s') →
      ∃ D, s'.log = s.log ++ D ∧ tr.countP returnedErr = D.countP refused := by
  intro ops
  induction ops with
  | nil =>
    intro s s' tr h
    simp only [traceWin, Option.some.injEq, Prod.mk.injEq] at h
    exact ⟨[], by rw [← h.2]; simp, by rw [← h.1]; rfl⟩
  | cons op ops ih =>
    intro s s' tr h
    simp only [traceWin] at h
    have hg := honest_win t op s
    cases ho : op.win t s with
    | stop x => rw [ho] at h; cases h
    | ok a s1 =>
      rw [ho] at h
      simp only [Option.map_eq_some_iff, Prod.mk.injEq] at h
      obtain ⟨⟨tr1, s2⟩, h1, rfl, rfl⟩ := h
      obtain ⟨D1, e1, k1⟩ := hg.1 a s1 ho
      obtain ⟨D2, e2, k2⟩ := ih _ _ _ h1
      refine ⟨D1 ++ D2, by rw [e2, e1, List.append_assoc], ?_⟩
      rw [List.countP_append, k1, ← k2, List.countP_cons]
      simp [returnedErr]
    | err x s1 =>
      rw [ho] at h
      simp only [Option.map_eq_some_iff, Prod.mk.injEq] at h
      obtain ⟨⟨tr1, s2⟩, h1, rfl, rfl⟩ := h
      obtain ⟨D1, c, e1, k1, k3⟩ := hg.2 x s1 ho
      obtain ⟨D2, e2, k2⟩ := ih _ _ _ h1
      refine ⟨(D1 ++ [c]) ++ D2, by rw [e2, e1, List.append_assoc], ?_⟩
      rw [List.countP_append, List.countP_append, k1, ← k2, List.countP_cons]
      simp [returnedErr, k3, Nat.add_comm]

/-! ## Screens -/

/-- The same of code of a screen. -/
def SHonest {α : Type} (m : SWM α) : Prop :=
  ∀ x, (∀ a x', m x = .ok a x' → ∃ D, x'.w.log = x.w.log ++ D ∧ D.countP refused = 0) ∧
    (∀ e x', m x = .err e x' → ∃ D ev, x'.w.log = x.w.log ++ (D ++ [ev]) ∧
      D.countP refused = 0 ∧ refused ev = true)

theorem SHonest.bind {α β : Type} {m : SWM α} {f : α → SWM β} (h : SHonest m)
    (hf : ∀ a, SHonest (f a)) : SHonest (m >>= f) := by
  intro s
  rw [sm_bind]
  cases hm : m s with
  | stop w => exact ⟨fun _ _ h => (by cases h), fun _ _ h => (by cases h)⟩
  | err e s1 =>
    refine ⟨fun _ _ h => (by cases h), ?_⟩
    rintro e' s' ⟨⟩
    exact (h s).2 _ _ hm
  | ok a s1 =>
    obtain ⟨D, d1, d2⟩ := (h s).1 a s1 hm
    refine ⟨fun b s' hb => ?_, fun e s' hb => ?_⟩
    · obtain ⟨D', d3, d4⟩ := (hf a s1).1 b s' hb
      exact ⟨D ++ D', by rw [d3, d1, List.append_assoc], by rw [List.countP_append, d2, d4]⟩
    · obtain ⟨D', c, d3, d4, d5⟩ := (hf a s1).2 e s' hb
      exact ⟨D ++ D', c, by rw [d3, d1]; simp only [List.append_assoc],
        by rw [List.countP_append, d2, d4], d5⟩

theorem SHonest.pure {α : Type} (a : α) : SHonest (pure a : SWM α) := by
  intro s
  refine ⟨?_, fun _ _ h => (by cases h)⟩
  rintro b s' ⟨⟩
  exact ⟨[], by simp, rfl⟩

theorem shonest_get : SHonest (SM.get : SWM WScr) := by
  intro s
  refine ⟨?_, fun _ _ h => (by cases h)⟩
  rintro b s' ⟨⟩
  exact ⟨[], by simp, rfl⟩

theorem shonest_modify {f : WScr → WScr} (hf : ∀ s, (f s).w.log = s.w.log) : SHonest (SM.modify f) := by
  intro s
  refine ⟨?_, fun _ _ h => (by cases h)⟩
  rintro b s' ⟨⟩
  exact ⟨[], by simp [hf], rfl⟩

theorem shonest_halt {α : Type} (w : Stop) : SHonest (SM.halt w : SWM α) := fun _ => ⟨fun _ _ h => (by cases h), fun _ _ h => (by cases h)⟩

theorem shonest_ofPanics {α : Type} (y : Panics α) : SHonest (SM.ofPanics y : SWM α) := by
  cases y with
  | none => exact shonest_halt _
  | some a => exact SHonest.pure a

theorem shonest_onT {α : Type} {m : WM α} (h : Honest m) : SHonest (onT m) := by
  intro x
  unfold onT
  cases hm : m x.w with
  | stop w => exact ⟨fun _ _ h => (by cases h), fun _ _ h => (by cases h)⟩
  | err e s1 =>
    refine ⟨fun _ _ h => (by cases h), ?_⟩
    rintro e' s' ⟨⟩
    exact (h x.w).2 _ _ hm
  | ok a s1 =>
    refine ⟨?_, fun _ _ h => (by cases h)⟩
    rintro e' s' ⟨⟩
    exact (h x.w).1 _ _ hm

theorem shonest_move (p : Cursor) : SHonest (wsMoveCursor p) := by
  unfold wsMoveCursor
  refine shonest_get.bind fun x => ?_
  split
  · exact (shonest_onT (honest_win ⟨0, 0, 0⟩ (.moveTo p))).bind fun _ => shonest_modify fun _ => rfl
  · exact SHonest.pure _

theorem shonest_apply (t : WTerm) (a b : Theme) : SHonest (applyAttrs t a b) := by
  unfold applyAttrs
  split
  · exact shonest_onT (honest_setAttributes t b)
  · exact SHonest.pure _

theorem shonest_drawCell (t : WTerm) (src : Theme) (p : Cursor) (c : Cell) :
    SHonest (wsDrawCell t src p c) := by
  unfold wsDrawCell
  exact (shonest_move p).bind fun _ => (shonest_apply t _ _).bind fun _ =>
    (shonest_onT (honest_writeStr _)).bind fun _ => shonest_get.bind fun _ =>
      (shonest_ofPanics _).bind fun _ => shonest_modify fun _ => rfl

theorem shonest_drawLoop (u : UEnv) (t : WTerm) : ∀ (f : Nat) (r : Nat × Nat) (src : Theme),
    SHonest (wsDrawLoop u t f r src)
  | 0, _, _ => shonest_halt _
  | f + 1, (idx, n), src => by
    unfold wsDrawLoop
    refine shonest_get.bind fun x => (shonest_ofPanics _).bind fun y => ?_
    obtain ⟨b, rest, found⟩ := y
    dsimp only
    refine SHonest.bind (shonest_modify (by intro s; rfl)) fun _ => ?_
    cases found with
    | none => exact SHonest.pure _
    | some pc => exact (shonest_drawCell t src pc.1 pc.2).bind fun _ => shonest_drawLoop u t f rest _

theorem shonest_placeCursor : SHonest wsPlaceCursor := by
  unfold wsPlaceCursor
  refine shonest_get.bind fun x => ?_
  split
  · exact (shonest_ofPanics _).bind fun _ => shonest_move _
  · exact shonest_move _

theorem shonest_clearIfNeeded (t : WTerm) : SHonest (wsClearIfNeeded t) := by
  unfold wsClearIfNeeded SM.when
  refine shonest_get.bind fun x => ?_
  split
  · exact (shonest_onT (honest_win t .clearScreen)).bind fun _ => shonest_modify fun _ => rfl
  · exact SHonest.pure _

theorem shonest_refresh (u : UEnv) (t : WTerm) : SHonest (wsRefresh u t) := by
  have hc : SHonest (onT (winClearAttributes t)) := shonest_onT (honest_win t .clearAttributes)
  unfold wsRefresh
  exact (shonest_clearIfNeeded t).bind fun _ => hc.bind fun _ => shonest_get.bind fun _ =>
    (shonest_drawLoop u t _ _ _).bind fun _ => hc.bind fun _ => shonest_placeCursor

theorem shonest_call (u : UEnv) (t : WTerm) (op : GOp) : SHonest (wsCall u t op) := by
  cases op with
  | draw op =>
    exact shonest_get.bind fun _ => (shonest_ofPanics _).bind fun _ => shonest_modify fun _ => rfl
  | refresh => exact shonest_refresh u t
  | setCursorMode m => exact shonest_onT (honest_win t (.cursorMode m))

/-! ## Reading -/

/-- An access to an atomic variable. -/
theorem honest_atomic : Honest (conCall .atomic) := by
  intro s
  refine ⟨fun a s1 hc => ?_, fun _ _ h => absurd h conCall_not_err⟩
  obtain ⟨evs, h1, h2, -⟩ := conCall_ok hc
  exact ⟨evs ++ [.call .atomic a], by rw [h2, List.append_assoc],
    by rw [List.countP_append, haps_not_refused h1]; rfl⟩

theorem honest_getCtrl : Honest getCtrl :=
  honest_atomic.bind fun _ => honest_get.bind fun _ => Honest.pure _

theorem honest_takeCtrl : Honest takeCtrl :=
  honest_atomic.bind fun _ => honest_get.bind fun _ => Honest.bind (honest_modify (by intro s; rfl)) fun _ =>
    Honest.pure _

theorem honest_wait (t : WTerm) (d : Option Duration) : Honest (winWait t d) := by
  unfold winWait
  refine honest_getCtrl.bind fun r => ?_
  cases r with
  | some _ => exact Honest.pure _
  | none =>
    refine (honest_ofPanics _).bind fun ms => ?_
    refine honest_call _ _ rfl rfl fun a ha => ?_
    cases a <;> first | exact absurd rfl ha | exact Honest.pure _ | exact honest_halt _

theorem honest_readRawEvent (t : WTerm) (n : Nat) (d : Option Duration) :
    Honest (winReadRawEvent t n d) := by
  unfold winReadRawEvent
  refine (honest_wait t d).bind fun b => ?_
  split
  · exact Honest.pure _
  · refine honest_takeCtrl.bind fun r => ?_
    cases r with
    | some _ => exact Honest.pure _
    | none =>
      refine honest_call _ _ rfl rfl fun a ha => ?_
      cases a <;> first | exact absurd rfl ha | exact honest_halt _ | skip
      dsimp only
      split
      · exact Honest.pure _
      · exact honest_halt _

theorem honest_readRaw (t : WTerm) (n : Nat) (d : Option Duration) : Honest (winReadRaw t n d) := by
  unfold winReadRaw
  refine (honest_wait t d).bind fun b => ?_
  split
  · exact Honest.pure _
  · refine honest_takeCtrl.bind fun r => ?_
    cases r with
    | some _ => exact Honest.pure _
    | none =>
      refine honest_call _ _ rfl rfl fun a ha => ?_
      cases a <;> first | exact absurd rfl ha | exact honest_halt _ | skip
      dsimp only
      split
      · split <;> exact Honest.pure _
      · exact honest_halt _

theorem honest_readEvent (t : WTerm) (d : Option Duration) : Honest (winReadEvent t d) := by
  unfold winReadEvent
  refine (honest_readRawEvent t 1 d).bind fun r => ?_
  split
  · split
    · exact Honest.pure _
    · exact honest_get.bind fun _ => (honest_ofPanics _).bind fun _ =>
        Honest.bind (honest_modify (by intro s; rfl)) fun _ => Honest.pure _
  · exact Honest.pure _

theorem honest_prepare (t : WTerm) (cfg : PrepareConfig) : Honest (winPrepare t cfg) := by
  have hm : Honest (consoleMode t.inH) := by
    refine honest_call _ _ rfl rfl fun a ha => ?_
    cases a <;> first | exact absurd rfl ha | exact Honest.pure _ | exact honest_halt _
  unfold winPrepare SM.when setConsoleMode catchSignals
  refine hm.bind fun _ => ?_
  repeat' (first
    | exact Honest.pure _ | exact honest_boolCall _ rfl | exact honest_atomic
    | exact honest_modify (fun _ => rfl) | refine Honest.bind ?_ fun _ => ?_ | split)

theorem honest_restore (t : WTerm) (st : WinPrepared) : Honest (winRestore t st) := by
  unfold winRestore SM.when setConsoleMode
  honest_tac

theorem honest_sigOp (t : WTerm) (op : SigOp) : Honest (op.run t) := by
  cases op with
  | wait d => exact (honest_wait t d).bind fun _ => Honest.pure _
  | readEvent d => exact honest_readEvent t d
  | readRaw n d => exact (honest_readRaw t n d).bind fun _ => Honest.pure _
  | readRawEvent n d => exact (honest_readRawEvent t n d).bind fun _ => Honest.pure _
  | prepare cfg => exact (honest_prepare t cfg).bind fun _ => Honest.pure _
  | restore st => exact (honest_restore t st).bind fun _ => Honest.pure _
  | write x => exact (honest_writeStr x).bind fun _ => Honest.pure _
  | attr op => exact (honest_attrOp t op).bind fun _ => Honest.pure _
  | moveTo p => exact (honest_win t (.moveTo p)).bind fun _ => Honest.pure _
  | moveBy off =>
    have : Honest (moveRel off) := by unfold moveRel moveAbs; honest_tac
    exact this.bind fun _ => Honest.pure _
  | clearScreen => exact (honest_win t .clearScreen).bind fun _ => Honest.pure _
  | clearLine => exact (honest_win t .clearToLineEnd).bind fun _ => Honest.pure _
  | clearRest => exact (honest_win t .clearToScreenEnd).bind fun _ => Honest.pure _
  | cursorMode m => exact (honest_win t (.cursorMode m)).bind fun _ => Honest.pure _

end Mortal
