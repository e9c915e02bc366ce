import Verif.Lemmas.WinHandles

/-! # The handles used in the whole life of a terminal on Windows: helper lemmas -/

namespace Mortal
open Spec

/-! ## Code of screens -/

/-- The code of a screen uses the handles `a` and `b` only, when the writer's handle is `b`, and leaves
it so. -/
def ScrOnly (a b : Nat) {α : Type} (m : SWM α) : Prop :=
  ∀ s, s.w.outH = b →
    (∀ x s', m s = .ok x s' → s'.w.outH = b ∧ ∃ D, s'.w.log = s.w.log ++ D ∧ ∀ e ∈ D, PlainEv a b e) ∧
    (∀ x s', m s = .err x s' → s'.w.outH = b ∧ ∃ D, s'.w.log = s.w.log ++ D ∧ ∀ e ∈ D, PlainEv a b e)

variable {a b : Nat}

theorem ScrOnly.pure {α : Type} (x : α) : ScrOnly a b (pure x : SWM α) :=
  fun s hs => ⟨fun _ _ h => by cases h; exact ⟨hs, [], by simp, by simp⟩, fun _ _ h => by cases h⟩

theorem ScrOnly.bind {α β : Type} {m : SWM α} {f : α → SWM β} (h : ScrOnly a b m)
    (hf : ∀ x, ScrOnly a b (f x)) : ScrOnly a b (m >>= f) := by
  intro s hs
  simp only [sm_bind]
  constructor
  · intro y s' e
    cases hm : m s with
    | ok x s1 =>
      rw [hm] at e
      obtain ⟨o1, d1⟩ := (h s hs).1 x s1 hm
      obtain ⟨o2, d2⟩ := (hf x s1 o1).1 y s' e
      exact ⟨o2, uses_trans d1 d2⟩
    | err e' s1 => rw [hm] at e; cases e
    | stop w => rw [hm] at e; cases e
  · intro y s' e
    cases hm : m s with
    | ok x s1 =>
      rw [hm] at e
      obtain ⟨o1, d1⟩ := (h s hs).1 x s1 hm
      obtain ⟨o2, d2⟩ := (hf x s1 o1).2 y s' e
      exact ⟨o2, uses_trans d1 d2⟩
    | err e' s1 => rw [hm] at e; cases e; exact (h s hs).2 _ _ hm
    | stop w => rw [hm] at e; cases e

theorem scr_get : ScrOnly a b (SM.get : SWM WScr) :=
  fun s hs => ⟨fun _ _ h => by cases h; exact ⟨hs, [], by simp, by simp⟩, fun _ _ h => by cases h⟩

theorem scr_halt {α : Type} (w : Stop) : ScrOnly a b (SM.halt w : SWM α) :=
  fun s _ => ⟨fun _ _ h => by (cases h), fun _ _ h => by (cases h)⟩

theorem scr_ofPanics {α : Type} (x : Panics α) : ScrOnly a b (SM.ofPanics x : SWM α) := by
  cases x with
  | none => exact scr_halt _
  | some a => exact ScrOnly.pure a

theorem scr_modify {f : WScr → WScr} (h1 : ∀ s, (f s).w = s.w) : ScrOnly a b (SM.modify f) := by
  refine fun s hs => ⟨fun _ _ h => ?_, fun _ _ h => by cases h⟩
  cases h
  exact ⟨by rw [h1]; exact hs, [], by simp [h1], by simp⟩

theorem scr_onT {α : Type} {m : WM α} (h : UsesOnly a b m) : ScrOnly a b (onT m) := by
  intro s hs
  unfold onT
  constructor
  · intro x s' e
    cases hm : m s.w with
    | ok y w => rw [hm] at e; cases e; exact (h s.w hs).1 _ _ hm
    | err y w => rw [hm] at e; cases e
    | stop w => rw [hm] at e; cases e
  · intro x s' e
    cases hm : m s.w with
    | ok y w => rw [hm] at e; cases e
    | err y w => rw [hm] at e; cases e; exact (h s.w hs).2 _ _ hm
    | stop w => rw [hm] at e; cases e

theorem scr_when {p : Prop} [Decidable p] {m : SWM Unit} (h : ScrOnly a b m) :
    ScrOnly a b (SM.when p m) := by
  unfold SM.when
  split
  · exact h
  · exact ScrOnly.pure _

theorem scr_ignore {m : SWM Unit} (h : ScrOnly a b m) : ScrOnly a b (SM.ignore m) := by
  intro s hs
  unfold SM.ignore
  constructor
  · intro x s' e
    cases hm : m s with
    | ok y s1 => rw [hm] at e; cases e; exact (h s hs).1 _ _ hm
    | err y s1 => rw [hm] at e; cases e; exact (h s hs).2 _ _ hm
    | stop w => rw [hm] at e; cases e
  · intro x s' e
    cases hm : m s <;> rw [hm] at e <;> cases e

variable (u : UEnv) (t : WTerm)

theorem scr_moveCursor (p : Cursor) : ScrOnly a b (wsMoveCursor p) := by
  unfold wsMoveCursor
  refine ScrOnly.bind scr_get fun _ => ?_
  split
  · exact ScrOnly.bind (scr_onT (uses_moveCursor p)) fun _ => scr_modify fun _ => rfl
  · exact ScrOnly.pure _

theorem scr_drawCell (src : Theme) (p : Cursor) (c : Cell) : ScrOnly a b (wsDrawCell t src p c) := by
  unfold wsDrawCell applyAttrs
  refine ScrOnly.bind (scr_moveCursor p) fun _ => ?_
  refine ScrOnly.bind ?_ fun _ => ?_
  · split
    · exact scr_onT (uses_setAttributes t _)
    · exact ScrOnly.pure _
  refine ScrOnly.bind (scr_onT (uses_write _)) fun _ => ?_
  refine ScrOnly.bind scr_get fun _ => ?_
  exact ScrOnly.bind (scr_ofPanics _) fun _ => scr_modify fun _ => rfl

theorem scr_drawLoop (f : Nat) (r : Nat × Nat) (src : Theme) : ScrOnly a b (wsDrawLoop u t f r src) := by
  induction f generalizing r src with
  | zero => exact scr_halt _
  | succ f ih =>
    obtain ⟨idx, n⟩ := r
    show ScrOnly a b (SM.get >>= fun s => SM.ofPanics (s.buf.nextCell u n idx) >>= fun x => _)
    refine ScrOnly.bind scr_get fun _ => ?_
    refine ScrOnly.bind (scr_ofPanics _) fun x => ?_
    obtain ⟨b', rest, found⟩ := x
    dsimp only
    refine ScrOnly.bind (scr_modify fun _ => rfl) fun _ => ?_
    cases found with
    | none => exact ScrOnly.pure _
    | some pc => exact ScrOnly.bind (scr_drawCell t _ _ _) fun _ => ih _ _

theorem scr_refresh : ScrOnly a b (wsRefresh u t) := by
  unfold wsRefresh wsClearIfNeeded wsPlaceCursor
  refine ScrOnly.bind (ScrOnly.bind scr_get fun _ => scr_when ?_) fun _ => ?_
  · exact ScrOnly.bind (scr_onT (uses_clearScreen t)) fun _ => scr_modify fun _ => rfl
  refine ScrOnly.bind (scr_onT (uses_setAttributes t _)) fun _ => ?_
  refine ScrOnly.bind scr_get fun _ => ?_
  refine ScrOnly.bind (scr_drawLoop u t _ _ _) fun _ => ?_
  refine ScrOnly.bind (scr_onT (uses_setAttributes t _)) fun _ => ?_
  refine ScrOnly.bind scr_get fun _ => ?_
  split
  · exact ScrOnly.bind (scr_ofPanics _) fun _ => scr_moveCursor _
  · exact scr_moveCursor _

theorem scr_refreshCall : ScrOnly a b (wsRefreshCall u t) := by
  have h1 : ScrOnly a b (wsRefresh u t) := scr_refresh u t
  have h2 : ScrOnly a b (wsGuardDrop u t) := scr_ignore h1
  intro s hs
  unfold wsRefreshCall
  cases hm : wsRefresh u t s with
  | ok y s1 =>
    obtain ⟨o1, d1⟩ := (h1 s hs).1 _ _ hm
    dsimp only
    exact ⟨fun x s' e => ⟨((h2 s1 o1).1 x s' e).1, uses_trans d1 ((h2 s1 o1).1 x s' e).2⟩,
      fun x s' e => ⟨((h2 s1 o1).2 x s' e).1, uses_trans d1 ((h2 s1 o1).2 x s' e).2⟩⟩
  | err y s1 =>
    obtain ⟨o1, d1⟩ := (h1 s hs).2 _ _ hm
    dsimp only
    cases hg : wsGuardDrop u t s1 with
    | ok z s2 =>
      refine ⟨fun x s' e => by (cases e), fun x s' e => ?_⟩
      cases e
      exact ⟨((h2 s1 o1).1 _ _ hg).1, uses_trans d1 ((h2 s1 o1).1 _ _ hg).2⟩
    | err z s2 =>
      refine ⟨fun x s' e => by (cases e), fun x s' e => ?_⟩
      cases e
      exact ⟨((h2 s1 o1).2 _ _ hg).1, uses_trans d1 ((h2 s1 o1).2 _ _ hg).2⟩
    | stop w => exact ⟨fun x s' e => by (cases e), fun x s' e => by (cases e)⟩
  | stop w => exact ⟨fun x s' e => by (cases e), fun x s' e => by (cases e)⟩

theorem scr_call (op : GOp) : ScrOnly a b (wsCall u t op) := by
  cases op with
  | draw op =>
    exact ScrOnly.bind scr_get fun _ => ScrOnly.bind (scr_ofPanics _) fun _ => scr_modify fun _ => rfl
  | refresh => exact scr_refresh u t
  | setCursorMode m => exact scr_onT (uses_cursorMode m)

theorem scr_guard (ops : List GOp) : ScrOnly a b (wsGuardSession u t ops) := by
  induction ops with
  | nil => exact scr_ignore (scr_refresh u t)
  | cons op ops ih => exact ScrOnly.bind (scr_ignore (scr_call u t op)) fun _ => ih

theorem scr_updateSize (z : Size) : ScrOnly a b (wsUpdateSize z) := by
  unfold wsUpdateSize
  exact ScrOnly.bind scr_get fun _ => ScrOnly.bind (scr_ofPanics _) fun _ => scr_modify fun _ => rfl

theorem scr_use (op : ScrUse) : ScrOnly t.inH b (op.run u t) := by
  have quiet : ∀ {α β : Type} {m : SWM α} (x : β), ScrOnly t.inH b m →
      ScrOnly t.inH b (m >>= fun _ => pure x) := fun _ h => ScrOnly.bind h fun _ => ScrOnly.pure _
  cases op with
  | plain op =>
    refine quiet () ?_
    cases op with
    | draw op => exact quiet none (scr_call u t _)
    | refresh => exact quiet none (scr_refreshCall u t)
    | setCursorMode m => exact quiet none (scr_onT (uses_cursorMode m))
    | guard ops => exact quiet none (scr_guard u t ops)
    | waitEvent d => exact quiet none (scr_onT (uses_wait t d))
    | readEvent d =>
      show ScrOnly t.inH b (wsReadEvent t d)
      unfold wsReadEvent
      refine ScrOnly.bind (scr_onT (uses_event t d)) fun r => ?_
      split
      · exact ScrOnly.bind (scr_updateSize _) fun _ => ScrOnly.pure _
      · exact ScrOnly.pure _
  | readRaw n d =>
    refine quiet () ?_
    unfold wsReadRaw
    refine ScrOnly.bind (scr_onT (uses_raw t n d)) fun r => ?_
    split
    · exact ScrOnly.bind (scr_updateSize _) fun _ => ScrOnly.pure _
    · exact ScrOnly.pure _
  | readRawEvent n d =>
    refine quiet () ?_
    unfold wsReadRawEvent
    refine ScrOnly.bind (scr_onT (uses_rawEvent t n d)) fun r => ?_
    split
    · split
      · exact ScrOnly.bind (scr_updateSize _) fun _ => ScrOnly.pure _
      · exact ScrOnly.pure _
    · exact ScrOnly.pure _

/-! ## Sequences of calls -/

/-- What is recorded from `s` to `s'` uses `a` and `b` only. -/
def Plainly (a b : Nat) (s s' : WinSt) : Prop :=
  s'.outH = b ∧ ∃ D, s'.log = s.log ++ D ∧ ∀ e ∈ D, PlainEv a b e

theorem termUses_plain {t : WTerm} {b : Nat} (ops : List SigOp) {s s' : WinSt} (hs : s.outH = b)
    (h : termUses t ops s = some s') : Plainly t.inH b s s' := by
  induction ops generalizing s with
  | nil => cases h; exact ⟨hs, [], by simp, by simp⟩
  | cons op ops ih =>
    simp only [termUses] at h
    have hu := uses_sig t (b := b) op s hs
    cases hr : op.run t s with
    | ok x s1 =>
      rw [hr] at h
      obtain ⟨o1, d1⟩ := hu.1 _ _ hr
      obtain ⟨o2, d2⟩ := ih o1 h
      exact ⟨o2, uses_trans d1 d2⟩
    | err x s1 =>
      rw [hr] at h
      obtain ⟨o1, d1⟩ := hu.2 _ _ hr
      obtain ⟨o2, d2⟩ := ih o1 h
      exact ⟨o2, uses_trans d1 d2⟩
    | stop w => rw [hr] at h; cases h

theorem scrUses_plain {u : UEnv} {t : WTerm} {b : Nat} (ops : List ScrUse) {s s' : WScr}
    (hs : s.w.outH = b) (h : scrUses u t ops s = some s') : Plainly t.inH b s.w s'.w := by
  induction ops generalizing s with
  | nil => cases h; exact ⟨hs, [], by simp, by simp⟩
  | cons op ops ih =>
    simp only [scrUses] at h
    have hu := scr_use u t (b := b) op s hs
    cases hr : op.run u t s with
    | ok x s1 =>
      rw [hr] at h
      obtain ⟨o1, d1⟩ := hu.1 _ _ hr
      obtain ⟨o2, d2⟩ := ih o1 h
      exact ⟨o2, uses_trans d1 d2⟩
    | err x s1 =>
      rw [hr] at h
      obtain ⟨o1, d1⟩ := hu.2 _ _ hr
      obtain ⟨o2, d2⟩ := ih o1 h
      exact ⟨o2, uses_trans d1 d2⟩
    | stop w => rw [hr] at h; cases h

end Mortal
