import Verif.Lemmas.VtStep
import Verif.Lemmas.WriterBytes

/-! # What the calls of a write guard send, with what parameters -/

namespace Mortal
open Spec

/-! ## Invariants of every call -/

/-- A property of the writer preserved by its primitive actions. -/
structure SInv (env : WEnv) (P : WS → Prop) : Prop where
  attrs : ∀ s fg bg st, P s → P { s with fg := fg, bg := bg, style := st }
  expand : ∀ c ps f s, SaneOut (.cap c ps) → env.db c = some f → P s → Always (expand env c ps f s) P
  flush : ∀ s, P s → Always (flush s) P
  write : ∀ b s, P s → Always (writeBytes b s) P

theorem toU32_ne {n : Nat} (h : n ≠ 0) : [toU32 n] ≠ [0] := by
  intro e
  have e := List.cons.inj e
  have e := e.1
  unfold toU32 at e
  split at e <;> omega

macro "sane" : tactic => `(tactic| first
  | exact ⟨trivial, trivial⟩
  | exact ⟨trivial, _, rfl⟩
  | exact ⟨trivial, toU32_ne (by assumption)⟩)

theorem sane_expandOpt {env : WEnv} {P : WS → Prop} (hP : SInv env P) (c : Cap) (ps : List Nat)
    (hs : SaneOut (.cap c ps)) (s : WS) (h : P s) : Always (expandOpt env c ps s) P := by
  unfold expandOpt
  split
  · rename_i f hf; exact hP.expand c ps f s hs hf h
  · exact Always.ok h

theorem sane_expandReq {env : WEnv} {P : WS → Prop} (hP : SInv env P) (c : Cap) (ps : List Nat)
    (hs : SaneOut (.cap c ps)) (s : WS) (h : P s) : Always (expandReq env c ps s) P := by
  unfold expandReq
  split
  · rename_i f hf; exact hP.expand c ps f s hs hf h
  · exact Always.err h

/-- A property preserved by the attribute commands. -/
structure SInvA (env : WEnv) (P : WS → Prop) : Prop where
  attrs : ∀ s fg bg st, P s → P { s with fg := fg, bg := bg, style := st }
  expand : ∀ c ps f s, IsAttrCap c → SaneOut (.cap c ps) → env.db c = some f → P s → Always (expand env c ps f s) P

theorem SInv.toA {env : WEnv} {P : WS → Prop} (hP : SInv env P) : SInvA env P :=
  ⟨hP.attrs, fun c ps f s _ => hP.expand c ps f s⟩

theorem sana_expandOpt {env : WEnv} {P : WS → Prop} (hP : SInvA env P) (c : Cap) (hc : IsAttrCap c)
    (ps : List Nat) (hs : SaneOut (.cap c ps)) (s : WS) (h : P s) : Always (expandOpt env c ps s) P := by
  unfold expandOpt
  split
  · rename_i f hf; exact hP.expand c ps f s hc hs hf h
  · exact Always.ok h

theorem sana_clear {env : WEnv} {P : WS → Prop} (hP : SInvA env P) (s : WS) (h : P s) :
    Always (clearAttributes env s) P := by
  unfold clearAttributes
  split
  · exact sana_expandOpt hP _ (by exact trivial) _ (by sane) _ (hP.attrs s _ _ _ h)
  · exact Always.ok h

theorem sana_addStyle {env : WEnv} {P : WS → Prop} (hP : SInvA env P) (st : Style) (s : WS)
    (h : P s) : Always (addStyle env st s) P := by
  unfold addStyle
  refine Always.andThen (Always.andThen (Always.andThen (Always.andThen ?_ ?_) ?_) ?_) ?_
  · exact inv_whenDo _ (sana_expandOpt hP _ (by exact trivial) _ (by sane)) s h
  · exact inv_whenDo _ (sana_expandOpt hP _ (by exact trivial) _ (by sane))
  · exact inv_whenDo _ (sana_expandOpt hP _ (by exact trivial) _ (by sane))
  · exact inv_whenDo _ (sana_expandOpt hP _ (by exact trivial) _ (by sane))
  · exact fun s h => Always.ok (hP.attrs s s.fg s.bg _ h)

theorem sana_areq {env : WEnv} {P : WS → Prop} (hP : SInvA env P) :
    ∀ (n : Nat) (r : AReq) (s : WS), P s → Always (areq env n r s) P := by
  intro n
  induction n with
  | zero => intro r s h; unfold areq; exact Always.stop
  | succ n ih =>
    intro r s h
    cases r with
    | setFg c =>
      unfold areq
      split
      · exact Always.ok h
      · refine Always.andThen ?_ fun s h => Always.ok (hP.attrs s _ s.bg s.style h)
        cases c with
        | none => exact ih _ s h
        | some c => exact sana_expandOpt hP _ (by exact trivial) _ (by sane) s h
    | setBg c =>
      unfold areq
      split
      · exact Always.ok h
      · refine Always.andThen ?_ fun s h => Always.ok (hP.attrs s s.fg _ s.style h)
        cases c with
        | none => exact ih _ s h
        | some c => exact sana_expandOpt hP _ (by exact trivial) _ (by sane) s h
    | clearFg =>
      unfold areq
      exact Always.andThen (Always.andThen (sana_clear hP s h) (ih _)) (ih _)
    | clearBg =>
      unfold areq
      exact Always.andThen (Always.andThen (sana_clear hP s h) (ih _)) (ih _)
    | removeStyle st =>
      unfold areq
      dsimp only
      split
      · exact Always.andThen (Always.andThen (Always.andThen (sana_clear hP s h)
          (sana_addStyle hP _)) (ih _)) (ih _)
      · exact Always.andThen (Always.andThen (inv_whenDo _ (sana_expandOpt hP _ (by exact trivial) _ (by sane)) s h)
          (inv_whenDo _ (sana_expandOpt hP _ (by exact trivial) _ (by sane)))) fun s h => Always.ok (hP.attrs s s.fg s.bg _ h)
    | setStyle st =>
      unfold areq
      dsimp only
      split
      · exact Always.andThen (Always.andThen (Always.andThen (sana_clear hP s h)
          (ih _)) (ih _)) (sana_addStyle hP _)
      · exact Always.andThen (sana_addStyle hP _ s h) (ih _)

theorem sana_setAttrs {env : WEnv} {P : WS → Prop} (hP : SInvA env P) (fg bg : Option Color)
    (st : Style) (s : WS) (h : P s) : Always (setAttrs env fg bg st s) P := by
  unfold setAttrs
  exact Always.andThen (Always.andThen (Always.andThen (inv_whenDo _ (sana_clear hP) s h)
    (sana_areq hP _ _)) (sana_areq hP _ _)) (sana_areq hP _ _)

theorem sane_clear {env : WEnv} {P : WS → Prop} (hP : SInv env P) (s : WS) (h : P s) :
    Always (clearAttributes env s) P := sana_clear hP.toA s h

theorem sane_addStyle {env : WEnv} {P : WS → Prop} (hP : SInv env P) (st : Style) (s : WS)
    (h : P s) : Always (addStyle env st s) P := sana_addStyle hP.toA st s h

theorem sane_areq {env : WEnv} {P : WS → Prop} (hP : SInv env P)
    (n : Nat) (r : AReq) (s : WS) (h : P s) : Always (areq env n r s) P :=
  sana_areq hP.toA n r s h

theorem sane_setAttrs {env : WEnv} {P : WS → Prop} (hP : SInv env P) (fg bg : Option Color)
    (st : Style) (s : WS) (h : P s) : Always (setAttrs env fg bg st s) P :=
  sana_setAttrs hP.toA fg bg st s h

theorem sane_moveCursor {env : WEnv} {P : WS → Prop} (hP : SInv env P) (p : Cursor) (s : WS)
    (h : P s) : Always (moveCursor env p s) P := by
  unfold moveCursor
  split
  · rename_i addr home ha
    split
    · exact hP.expand _ _ _ s (by sane) ha h
    · split
      · rename_i a ha'
        exact hP.expand _ _ _ s (by sane) ha' h
      · exact Always.err h
  · rename_i a ha _
    exact hP.expand _ _ _ s (by sane) ha h
  · exact Always.err h

theorem sane_run {env : WEnv} {P : WS → Prop} (hP : SInv env P) (op : WOp) (s : WS) (h : P s) :
    Always (op.run env s) P := by
  cases op
  case setFg c => exact sane_areq hP _ _ s h
  case setBg c => exact sane_areq hP _ _ s h
  case addStyle st => exact sane_addStyle hP st s h
  case removeStyle st => exact sane_areq hP _ _ s h
  case setStyle st => exact sane_areq hP _ _ s h
  case setTheme th => exact sane_setAttrs hP _ _ _ s h
  case clearAttributes => exact sane_clear hP s h
  case writeStyled fg bg st b =>
    exact Always.andThen (Always.andThen (sane_setAttrs hP _ _ _ s h) (hP.write b)) (sane_clear hP)
  case writeStr b => exact hP.write b s h
  case flush => exact hP.flush s h
  case clearScreen => exact sane_expandReq hP _ _ (by sane) s h
  case clearToLineEnd => exact sane_expandReq hP _ _ (by sane) s h
  case clearToScreenEnd => exact sane_expandReq hP _ _ (by sane) s h
  case moveUp n =>
    simp only [WOp.run, moveUp]
    split
    · exact sane_expandReq hP _ _ (by sane) s h
    · split
      · exact sane_expandReq hP _ _ (by sane) s h
      · exact Always.ok h
  case moveDown n =>
    simp only [WOp.run, moveDown]
    split
    · exact sane_expandReq hP _ _ (by sane) s h
    · exact Always.ok h
  case moveLeft n =>
    simp only [WOp.run, moveLeft]
    split
    · exact sane_expandReq hP _ _ (by sane) s h
    · split
      · exact sane_expandReq hP _ _ (by sane) s h
      · exact Always.ok h
  case moveRight n =>
    simp only [WOp.run, moveRight]
    split
    · exact sane_expandReq hP _ _ (by sane) s h
    · split
      · exact sane_expandReq hP _ _ (by sane) s h
      · exact Always.ok h
  case moveToFirstColumn => exact hP.write _ s h
  case moveCursor p => exact sane_moveCursor hP p s h
  case setCursorMode m => cases m <;> exact sane_expandOpt hP _ _ (by sane) s h
  case sessionEnd =>
    have hfl := hP.flush s h
    simp only [WOp.run]
    split
    · rename_i s' e
      exact Always.ok (hfl s' (by rw [e]; rfl))
    · exact hfl

theorem sane_runW {env : WEnv} {P : WS → Prop} (hP : SInv env P) :
    ∀ (ops : List WOp) (s s' : WS), P s → runW env ops s = some s' → P s' := by
  intro ops
  induction ops with
  | nil => intro s s' h e; cases e; exact h
  | cons op ops ih =>
    intro s s' h e
    simp only [runW] at e
    cases ho : (op.run env s).state with
    | none => rw [ho] at e; cases e
    | some s1 =>
      rw [ho] at e
      exact ih s1 s' (sane_run hP op s h s1 ho) e


/-- Everything handed over is a command with the right parameters, or text. -/
def SaneLog (s : WS) : Prop := ∀ o ∈ s.log, SaneOut o

theorem saneLog_inv : SInv xtermDB SaneLog where
  attrs _ _ _ _ h := h
  expand c ps f s hs hf h := by
    cases hf
    refine Always.ok ?_
    intro o ho
    rcases List.mem_append.1 ho with ho | ho
    · exact h o ho
    · cases List.mem_singleton.1 ho
      exact hs
  flush s h := by
    intro s' e
    unfold flush at e
    split at e
    · cases e
    · split at e
      · cases e
      · dsimp only at e
        split at e <;> (cases e; exact h)
  write b s h := by
    have k := writeBytes_log b s
    cases e : writeBytes b s with
    | ok s' =>
      rw [e] at k
      refine Always.ok fun o ho => ?_
      rw [k] at ho
      rcases List.mem_append.1 ho with ho | ho
      · exact h o ho
      · cases List.mem_singleton.1 ho
        exact trivial
    | err x s' =>
      rw [e] at k
      refine Always.err fun o ho => ?_
      rw [k] at ho
      exact h o ho
    | stop w => exact Always.stop

end Mortal
