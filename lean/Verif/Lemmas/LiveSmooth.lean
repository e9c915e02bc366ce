import Verif.Lemmas.LocksWriter
import Verif.Lemmas.ScreenSession
import Verif.Lemmas.SessionRun

/-! # Refreshing does not fail while the device accepts data -/

namespace Mortal
open Spec

/-- The device accepts what it is given. -/
def OsOk (w : WS) : Prop := ∀ r ∈ w.os, r = .all ∨ r = .eintr

/-- No error. -/
def NoErr (o : Outcome WS) : Prop :=
  match o with
  | .ok w => OsOk w
  | .err _ _ => False
  | .stop _ => True

theorem NoErr.andThen {o : Outcome WS} {f : WS → Outcome WS} (h : NoErr o)
    (hf : ∀ w, OsOk w → NoErr (f w)) : NoErr (o >>? f) := by
  cases o with
  | ok s => exact hf s h
  | err e s => exact h
  | stop w => trivial

section
variable {env : WEnv} (hdb : GoodDB env)
include hdb

theorem noErr_expandOpt (c : Cap) (ps : List Nat) (w : WS) (h : OsOk w) :
    NoErr (expandOpt env c ps w) := smoothW_expandOpt hdb c ps w h

omit hdb in
theorem noErr_whenDo (b : Bool) {f : WS → Outcome WS} (hf : ∀ w, OsOk w → NoErr (f w)) (w : WS)
    (h : OsOk w) : NoErr (whenDo b f w) := by
  unfold whenDo
  split
  · exact hf w h
  · exact h

theorem noErr_clear (w : WS) (h : OsOk w) : NoErr (clearAttributes env w) := by
  unfold clearAttributes
  split
  · exact noErr_expandOpt hdb _ _ _ h
  · exact h

theorem noErr_addStyle (st : Style) (w : WS) (h : OsOk w) : NoErr (addStyle env st w) := by
  unfold addStyle
  refine NoErr.andThen (NoErr.andThen (NoErr.andThen (NoErr.andThen ?_ ?_) ?_) ?_) ?_
  · exact noErr_whenDo _ (noErr_expandOpt hdb _ _) w h
  · exact noErr_whenDo _ (noErr_expandOpt hdb _ _)
  · exact noErr_whenDo _ (noErr_expandOpt hdb _ _)
  · exact noErr_whenDo _ (noErr_expandOpt hdb _ _)
  · exact fun s h => h

theorem noErr_areq : ∀ (n : Nat) (r : AReq) (w : WS), OsOk w → NoErr (areq env n r w) := by
  intro n
  induction n with
  | zero => intro r s h; unfold areq; trivial
  | succ n ih =>
    intro r s h
    cases r with
    | setFg c =>
      unfold areq
      split
      · exact h
      · refine NoErr.andThen ?_ fun s h => h
        cases c with
        | none => exact ih _ s h
        | some c => exact noErr_expandOpt hdb _ _ s h
    | setBg c =>
      unfold areq
      split
      · exact h
      · refine NoErr.andThen ?_ fun s h => h
        cases c with
        | none => exact ih _ s h
        | some c => exact noErr_expandOpt hdb _ _ s h
    | clearFg =>
      unfold areq
      exact NoErr.andThen (NoErr.andThen (noErr_clear hdb s h) (ih _)) (ih _)
    | clearBg =>
      unfold areq
      exact NoErr.andThen (NoErr.andThen (noErr_clear hdb s h) (ih _)) (ih _)
    | removeStyle st =>
      unfold areq
      dsimp only
      split
      · exact NoErr.andThen (NoErr.andThen (NoErr.andThen (noErr_clear hdb s h)
          (noErr_addStyle hdb _)) (ih _)) (ih _)
      · exact NoErr.andThen (NoErr.andThen (noErr_whenDo _ (noErr_expandOpt hdb _ _) s h)
          (noErr_whenDo _ (noErr_expandOpt hdb _ _))) fun s h => h
    | setStyle st =>
      unfold areq
      dsimp only
      split
      · exact NoErr.andThen (NoErr.andThen (NoErr.andThen (noErr_clear hdb s h)
          (ih _)) (ih _)) (noErr_addStyle hdb _)
      · exact NoErr.andThen (noErr_addStyle hdb _ s h) (ih _)

theorem noErr_setAttrs (fg bg : Option Color) (st : Style) (w : WS) (h : OsOk w) :
    NoErr (setAttrs env fg bg st w) := by
  unfold setAttrs
  exact NoErr.andThen (NoErr.andThen (NoErr.andThen (noErr_whenDo _ (noErr_clear hdb) w h)
    (noErr_areq hdb _ _)) (noErr_areq hdb _ _)) (noErr_areq hdb _ _)

theorem noErr_setCursorMode (m : CursorMode) (w : WS) (h : OsOk w) :
    NoErr (setCursorMode env m w) := by
  unfold setCursorMode
  cases m <;> exact noErr_expandOpt hdb _ _ w h

theorem noErr_moveCursor (ha : (env.db .cursorAddress).isSome) (p : Cursor) (w : WS) (h : OsOk w) :
    NoErr (moveCursor env p w) := by
  unfold moveCursor
  cases h1 : env.db .cursorAddress with
  | none => rw [h1] at ha; cases ha
  | some a =>
    cases h2 : env.db .cursorHome with
    | none => exact smoothW_expand (hdb _ _ h1 _) w h
    | some g =>
      dsimp only
      split
      · exact smoothW_expand (hdb _ _ h2 _) w h
      · exact smoothW_expand (hdb _ _ h1 _) w h

theorem noErr_expandReq (c : Cap) (hc : (env.db c).isSome) (ps : List Nat) (w : WS) (h : OsOk w) :
    NoErr (expandReq env c ps w) := by
  unfold expandReq
  cases h1 : env.db c with
  | none => rw [h1] at hc; cases hc
  | some a => exact smoothW_expand (hdb _ _ h1 _) w h

end

/-- No error, for a screen. -/
def NoErrS (o : Outcome Scr) : Prop :=
  match o with
  | .ok s => OsOk s.w
  | .err _ _ => False
  | .stop _ => True

theorem NoErrS.andThen {o : Outcome Scr} {f : Scr → Outcome Scr} (h : NoErrS o)
    (hf : ∀ s, OsOk s.w → NoErrS (f s)) : NoErrS (o >>? f) := by
  cases o with
  | ok s => exact hf s h
  | err e s => exact h
  | stop w => trivial

theorem NoErrS.onW {f : WS → Outcome WS} {s : Scr} (h : NoErr (f s.w)) : NoErrS (s.onW f) := by
  rw [onW_def]
  cases hf : f s.w with
  | ok w => rw [hf] at h; exact h
  | err e w => rw [hf] at h; exact h
  | stop x => trivial

theorem NoErrS.ok {o : Outcome Scr} (h : NoErrS o) {s : Scr} (e : o = .ok s) : OsOk s.w := by
  rw [e] at h; exact h

theorem NoErrS.err {o : Outcome Scr} (h : NoErrS o) {s : Scr} {x : IoErr} (e : o = .err x s) :
    False := by
  rw [e] at h; exact h

section
variable {u : UEnv} {env : WEnv} (hg : GoodDB env) (hd : DrawDB env)
include hg hd

theorem noErrS_move (p : Cursor) (s : Scr) (h : OsOk s.w) : NoErrS (s.moveCursor env p) := by
  have ha : (env.db .cursorAddress).isSome := by
    obtain ⟨f, hf, -⟩ := hd.addr
    rw [hf]; rfl
  unfold Scr.moveCursor
  split
  · exact (NoErrS.onW (noErr_moveCursor hg ha p s.w h)).andThen fun s hs => hs
  · exact h

theorem noErrS_drawCell (p : Cursor) (c : Cell) (s : Scr) (h : OsOk s.w) :
    NoErrS (s.drawCell env p c) := by
  unfold Scr.drawCell
  refine (((noErrS_move hg hd p s h).andThen fun s hs =>
    NoErrS.onW (noErr_setAttrs hg _ _ _ s.w hs)).andThen fun s hs =>
    NoErrS.onW (smoothW_writeBytes _ s.w hs)).andThen fun s hs => ?_
  split
  · trivial
  · exact hs

theorem noErrS_drawLoop : ∀ (f : Nat) (r : Nat × Nat) (s : Scr), OsOk s.w →
    NoErrS (Scr.drawLoop u env f r s)
  | 0, _, _, _ => trivial
  | f + 1, (idx, n), s, h => by
    unfold Scr.drawLoop
    split
    · trivial
    · exact h
    · exact (noErrS_drawCell hg hd _ _ _ (by exact h)).andThen fun s hs => noErrS_drawLoop f _ s hs

theorem noErrS_refresh (s : Scr) (h : OsOk s.w) : NoErrS (s.refresh u env) := by
  unfold Scr.refresh
  refine NoErrS.andThen ?_ fun s hs => ?_
  · refine NoErrS.andThen ?_ fun s hs => NoErrS.onW (noErr_clear hg s.w hs)
    unfold Scr.clearIfNeeded
    split
    · have hc : (env.db .clearScreen).isSome := by
        obtain ⟨f, hf, -⟩ := hd.clear
        rw [hf]; rfl
      exact (NoErrS.onW (noErr_expandReq hg _ hc _ s.w h)).andThen fun s hs => hs
    · exact h
  refine (((noErrS_drawLoop hg hd _ _ s hs).andThen fun s hs =>
    NoErrS.onW (noErr_clear hg s.w hs)).andThen fun s hs => ?_).andThen fun s hs =>
    NoErrS.onW (smoothW_flush s.w hs)
  unfold Scr.placeCursor
  split
  · split
    · trivial
    · exact noErrS_move hg hd _ s hs
  · exact noErrS_move hg hd _ s hs

end

end Mortal
