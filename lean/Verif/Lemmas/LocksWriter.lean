import Verif.Lemmas.Locks
import Verif.Lemmas.ScreenTexts
import Verif.Lemmas.WriterBytes

/-! # Lemmas: what threads do to the writer -/

namespace Mortal
open Spec

/-- Invariants of the writer, on a screen. -/
def AlwaysS (o : Outcome Scr) (P : WS → Prop) : Prop := ∀ s, o.state = some s → P s.w

theorem AlwaysS.andThen {o : Outcome Scr} {P : WS → Prop} {f : Scr → Outcome Scr}
    (h : AlwaysS o P) (hf : ∀ s, P s.w → AlwaysS (f s) P) : AlwaysS (o >>? f) P := by
  cases o with
  | ok s => exact hf s (h s rfl)
  | err e s => exact h
  | stop r => exact h

theorem AlwaysS.ok {s : Scr} {P : WS → Prop} (h : P s.w) : AlwaysS (.ok s) P := by
  intro s' e; cases e; exact h

theorem AlwaysS.stop {r : Stop} {P : WS → Prop} : AlwaysS (.stop r) P := by
  intro s' e; cases e

theorem AlwaysS.onW {f : WS → Outcome WS} {P : WS → Prop} {s : Scr} (h : Always (f s.w) P) :
    AlwaysS (s.onW f) P := by
  intro s' e
  unfold Scr.onW at e
  cases hf : f s.w with
  | ok w => rw [hf] at e; cases e; exact h w (by rw [hf]; rfl)
  | err x w => rw [hf] at e; cases e; exact h w (by rw [hf]; rfl)
  | stop r => rw [hf] at e; cases e

theorem always_moveS {env : WEnv} {P : WS → Prop} (hP : Inv4 env P) (p : Cursor) (s : Scr) (h : P s.w) :
    AlwaysS (s.moveCursor env p) P := by
  unfold Scr.moveCursor
  split
  · exact (AlwaysS.onW (inv_moveCursor hP p s.w h)).andThen fun s hs => AlwaysS.ok hs
  · exact AlwaysS.ok h

theorem always_drawCell {env : WEnv} {P : WS → Prop} (hP : Inv4 env P) (p : Cursor) (c : Cell) (s : Scr)
    (h : P s.w) : AlwaysS (s.drawCell env p c) P := by
  unfold Scr.drawCell
  refine ((AlwaysS.andThen (always_moveS hP p s h) fun s hs =>
    AlwaysS.onW (inv_setAttrs hP _ _ _ s.w hs)).andThen fun s hs =>
    AlwaysS.onW (hP.write _ s.w hs)).andThen fun s hs => ?_
  split
  · exact AlwaysS.stop
  · exact AlwaysS.ok hs

theorem always_drawLoop {u : UEnv} {env : WEnv} {P : WS → Prop} (hP : Inv4 env P) :
    ∀ (f : Nat) (r : Nat × Nat) (s : Scr), P s.w → AlwaysS (Scr.drawLoop u env f r s) P
  | 0, _, _, _ => AlwaysS.stop
  | f + 1, (idx, n), s, h => by
    unfold Scr.drawLoop
    split
    · exact AlwaysS.stop
    · exact AlwaysS.ok h
    · exact (always_drawCell hP _ _ _ (by exact h)).andThen fun s hs => always_drawLoop hP f _ s hs

theorem always_refresh {u : UEnv} {env : WEnv} {P : WS → Prop} (hP : Inv4 env P) (s : Scr) (h : P s.w) :
    AlwaysS (s.refresh u env) P := by
  unfold Scr.refresh
  refine AlwaysS.andThen ?_ fun s hs => ?_
  · refine AlwaysS.andThen ?_ fun s hs => AlwaysS.onW (inv_clear hP s.w hs)
    unfold Scr.clearIfNeeded
    split
    · exact (AlwaysS.onW (inv_expandReq hP _ _ s.w h)).andThen fun s hs => AlwaysS.ok hs
    · exact AlwaysS.ok h
  refine (((always_drawLoop hP _ _ s hs).andThen fun s hs =>
    AlwaysS.onW (inv_clear hP s.w hs)).andThen fun s hs => ?_).andThen fun s hs =>
    AlwaysS.onW (hP.flush s.w hs)
  unfold Scr.placeCursor
  split
  · split
    · exact AlwaysS.stop
    · exact always_moveS hP _ s hs
  · exact always_moveS hP _ s hs

theorem always_writes {env : WEnv} {P : WS → Prop} (hP : Inv4 env P) {f : WS → Outcome WS}
    (hf : Writes env f) (w : WS) (h : P w) : Always (f w) P := by
  induction hf generalizing w with
  | op o => exact inv_run hP o w h
  | text b => exact hP.write b w h
  | cap c ps => exact inv_expandOpt hP c ps w h
  | enter z => exact inv_enter hP z w h
  | exit =>
    unfold exitScreen
    split
    · rename_i f hf
      exact (hP.expand _ _ f w hf h).andThen fun s hs => hP.flush s hs
    · exact Always.ok h
  | seq _ _ ih1 ih2 => exact (ih1 w h).andThen ih2
  | refresh u d =>
    have := always_refresh (u := u) hP { d with w := w } h
    intro s e
    dsimp only at e
    cases hr : ({ d with w := w } : Scr).refresh u env with
    | ok x => rw [hr] at e this; cases e; exact this x rfl
    | err y x => rw [hr] at e this; cases e; exact this x rfl
    | stop r => rw [hr] at e; cases e

/-- What the writer satisfies at first, it satisfies always. -/
theorem always_exec {env : WEnv} {may : (LockId → Bool) → Call WS → Prop} {P : WS → Prop} (hP : Inv4 env P)
    {s s' : Sys WS} {tr : List (Nat × Label WS)} (e : Exec env may s tr s')
    (hw : ∀ x ∈ uses tr, Writes env x.2) (h : P s.ws) : P s'.ws := by
  induction e with
  | nil s => exact h
  | @cons s s1 s2 i a tr st ex ih =>
    by_cases ha : ∃ f, a = .use f
    · obtain ⟨f, rfl⟩ := ha
      have hf : Writes env f := hw (i, f) List.mem_cons_self
      refine ih (fun x hx => hw x (List.mem_cons_of_mem _ hx)) ?_
      cases st with
      | use _ hs => exact always_writes hP hf s.ws h _ hs
    · have hu : uses ((i, a) :: tr) = uses tr := by
        cases a with
        | use f => exact (ha ⟨f, rfl⟩).elim
        | _ => rfl
      rw [hu] at hw
      refine ih hw ?_
      rw [ws_kept st fun f hf => ha ⟨f, hf⟩]
      exact h

end Mortal
