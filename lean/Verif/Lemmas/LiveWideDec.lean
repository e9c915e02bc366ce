import Verif.Lemmas.LiveScr

/-! # The conditions on two-column characters can be checked (for concrete cases) -/

namespace Mortal
open Spec

instance holdsWideDec (u : UEnv) (c : Cell) : Decidable (HoldsWide u c) :=
  decidable_of_iff (c.isWide u = true) isWide_iff

instance someDec {α : Type} (o : Option α) (P : α → Prop) [DecidablePred P] :
    Decidable (∃ c, o = some c ∧ P c) :=
  match o with
  | none => isFalse (by rintro ⟨_, h, _⟩; cases h)
  | some c =>
    if h : P c then isTrue ⟨c, rfl, h⟩
    else isFalse (by rintro ⟨_, h1, h2⟩; cases h1; exact h h2)

instance ofSomeDec {α : Type} (o : Option α) (P : α → Prop) [DecidablePred P] :
    Decidable (∀ c, o = some c → P c) :=
  match o with
  | none => isTrue (by intro _ h; cases h)
  | some c =>
    if h : P c then isTrue (by intro _ e; cases e; exact h)
    else isFalse (fun h1 => h (h1 c rfl))

instance rightHalfDec (u : UEnv) (b : Buf) (p : Cursor) : Decidable (RightHalf u b p) := by
  unfold RightHalf; infer_instance

instance coveredDec (u : UEnv) (b : Buf) (p : Cursor) : Decidable (CoveredBefore u b p) := by
  unfold CoveredBefore; infer_instance

instance inBoundsAll (z : Size) (P : Cursor → Prop) [DecidablePred P] :
    Decidable (∀ p, InBounds p z → P p) :=
  decidable_of_iff (∀ l, l < z.lines → ∀ c, c < z.columns → P ⟨l, c⟩)
    ⟨fun h p hp => h p.line hp.1 p.column hp.2, fun h l hl c hc => h ⟨l, c⟩ ⟨hl, hc⟩⟩

instance nothingStaleDec (u : UEnv) (d : SData) : Decidable (NothingStale u d) := by
  unfold NothingStale; infer_instance

instance safeTextDec (u : UEnv) : ∀ (b : Buf) (s : List Char), Decidable (SafeText u b s)
  | _, [] => isTrue trivial
  | b, ch :: s =>
    have : Decidable (∀ b', b.writeChar u ch = some (b', .ok) → SafeText u b' s) :=
      match b.writeChar u ch with
      | none => isTrue (by intro b' e; cases e)
      | some (b1, r) =>
        if hr : r = .ok then
          match safeTextDec u b1 s with
          | isTrue h1 => isTrue (by intro b' e; cases e; exact h1)
          | isFalse h1 => isFalse (fun h2 => h1 (h2 b1 (by rw [hr])))
        else isTrue (by intro b' e; cases e; exact (hr rfl).elim)
    by unfold SafeText; unfold InBounds; infer_instance


instance safeOpDec (u : UEnv) (b : Buf) (op : BufOp) : Decidable (SafeOp u b op) := by
  cases op with
  | resize z =>
    refine decidable_of_iff (GoodSize z ∧ ∀ c, InBounds c b.size → c.column + 1 = z.columns →
      ∀ cell, cellAt b c = some cell → ¬ HoldsWide u cell) ?_
    exact ⟨fun h => ⟨h.1, fun c cell h1 h2 h3 => h.2 c h1 h2 cell h3⟩,
      fun h => ⟨h.1, fun c h1 h2 cell h3 => h.2 c cell h1 h2 h3⟩⟩
  | _ => unfold SafeOp; infer_instance

instance wideDrawDec (u : UEnv) (b : Buf) (op : BufOp) : Decidable (WideDraw u b op) :=
  have : Decidable (∀ z, op ≠ .resize z) := by
    cases op with
    | resize z => exact isFalse fun h => h z rfl
    | _ => exact isTrue (by intro z h; cases h)
  by unfold WideDraw ThinMarks; infer_instance

instance okDec {α : Type} (o : Outcome α) (P : α → Prop) [DecidablePred P] :
    Decidable (∀ c, o = .ok c → P c) :=
  match o with
  | .ok c =>
    if h : P c then isTrue (by intro _ e; cases e; exact h)
    else isFalse (fun h1 => h (h1 c rfl))
  | .err _ _ => isTrue (by intro _ h; cases h)
  | .stop _ => isTrue (by intro _ h; cases h)

instance wideGOpDec (u : UEnv) (s : Scr) (op : GOp) : Decidable (WideGOp u s op) := by
  cases op <;> (unfold WideGOp; infer_instance)

instance wideGuardDec (u : UEnv) (env : WEnv) : ∀ (ops : List GOp) (s : Scr),
    Decidable (WideGuard u env ops s)
  | [], s => nothingStaleDec u s.toSData
  | op :: ops, s =>
    have : DecidablePred (WideGuard u env ops) := fun s => wideGuardDec u env ops s
    by unfold WideGuard; infer_instance

instance wideCallDec (u : UEnv) (env : REnv) (d : SData) (s : US) (op : ScrOp) (r : URet) :
    Decidable (WideCall u env d s op r) := by
  unfold WideCall; split <;> infer_instance

instance wideHistDec (u : UEnv) (env : REnv) : ∀ (es : List LiveEv) (d : SData) (s : US),
    Decidable (WideHist u env d s es)
  | [], _, _ => isTrue trivial
  | .window z :: es, d, s => wideHistDec u env es d { s with size := z }
  | .call op r k :: es, d, s =>
    have : Decidable (∀ d' s', op.run u env d s = some (r, d', s') → WideHist u env d' s' es) :=
      match op.run u env d s with
      | none => isTrue (by intro _ _ e; cases e)
      | some (r1, d1, s1) =>
        if hr : r1 = r then
          match wideHistDec u env es d1 s1 with
          | isTrue h1 => isTrue (by intro _ _ e; cases e; exact h1)
          | isFalse h1 => isFalse (fun h2 => h1 (h2 d1 s1 (by rw [hr])))
        else isTrue (by intro _ _ e; cases e; exact (hr rfl).elim)
    by unfold WideHist; infer_instance

end Mortal
