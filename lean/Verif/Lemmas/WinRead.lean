import Verif.Lemmas.WinErase

/-! # Reading events leaves the output alone -/

namespace Mortal
open Spec

variable {u : UEnv} {k : Nat}

/-- Nothing but the records waiting, the reader and the signals has changed. -/
def WQuiet (c0 : Con) (s0 : WinSt) (c : Con) (s : WinSt) : Prop :=
  (∃ q, c = { c0 with queue := q }) ∧ s.outH = s0.outH ∧ s.theme = s0.theme ∧ s.catchSet = s0.catchSet

theorem WQuiet.refl (c : Con) (s : WinSt) : WQuiet c s c s := ⟨⟨c.queue, rfl⟩, rfl, rfl, rfl⟩

theorem WQuiet.stable (c0 : Con) (s0 : WinSt) : Stable (WQuiet c0 s0) := by
  rintro c s q s' ⟨⟨q', rfl⟩, h1, h2, h3⟩ hs
  exact ⟨⟨q, rfl⟩, hs.outH.trans h1, hs.theme.trans h2, hs.catchSet.trans h3⟩

theorem does_quiet_atomic (c0 : Con) (s0 : WinSt) {E : IoErr → Con → WinSt → Prop} :
    Does u k (WQuiet c0 s0) (conCall .atomic) (fun _ => WQuiet c0 s0) E :=
  does_atomic (WQuiet.stable c0 s0)

theorem does_getCtrl (c0 : Con) (s0 : WinSt) {E : IoErr → Con → WinSt → Prop} :
    Does u k (WQuiet c0 s0) getCtrl (fun _ => WQuiet c0 s0) E := by
  unfold getCtrl
  refine Does.bind (does_quiet_atomic c0 s0) fun _ => Does.bind Does.get fun s => ?_
  exact Does.mono (Does.pure _) (fun _ _ h => h.2) (fun _ _ _ h => h.2) (fun _ _ _ h => h)

theorem does_takeCtrl (c0 : Con) (s0 : WinSt) {E : IoErr → Con → WinSt → Prop} :
    Does u k (WQuiet c0 s0) takeCtrl (fun _ => WQuiet c0 s0) E := by
  unfold takeCtrl
  refine Does.bind (does_quiet_atomic c0 s0) fun _ => Does.bind Does.get fun s => ?_
  refine Does.bind (R := fun _ => WQuiet c0 s0) (Does.modify (fun _ => rfl) fun c s h => h.2) fun _ => ?_
  exact Does.mono (Does.pure _) (fun _ _ h => h) (fun _ _ _ h => h.2) (fun _ _ _ h => h)

theorem does_wait (c0 : Con) (s0 : WinSt) (t : WTerm) (timeout : Option Duration) :
    Does u t.inH (WQuiet c0 s0) (winWait t timeout) (fun _ => WQuiet c0 s0)
      (fun _ => WQuiet c0 s0) := by
  unfold winWait
  refine Does.bind (does_getCtrl c0 s0) fun r => ?_
  cases r with
  | some _ => exact Does.mono (Does.pure _) (fun _ _ h => h) (fun _ _ _ h => h.2) (fun _ _ _ h => h)
  | none =>
    refine Does.bind (Does.mono (Does.ofPanics _) (fun _ _ h => h) (fun _ _ _ h => h.2)
      (fun _ _ _ h => h)) fun ms => ?_
    refine Does.bind (R := fun _ => WQuiet c0 s0) (Does.call (WQuiet.stable c0 s0) _ ?_ (fun _ => WQuiet.stable c0 s0)) fun a => ?_
    · intro c s a hp _
      refine ⟨c, ?_, hp⟩
      cases a <;> rfl
    · cases a with
      | ok => exact Does.mono (Does.pure _) (fun _ _ h => h) (fun _ _ _ h => h.2) (fun _ _ _ h => h)
      | timeout => exact Does.mono (Does.pure _) (fun _ _ h => h) (fun _ _ _ h => h.2) (fun _ _ _ h => h)
      | fail => exact Does.mono (Does.throw _) (fun _ _ h => h) (fun _ _ _ h => h) (fun _ _ _ h => h.2)
      | handle _ => exact .halt _
      | mode _ => exact .halt _
      | info _ => exact .halt _
      | wrote _ => exact .halt _
      | recs _ => exact .halt _
      | chars _ => exact .halt _

theorem does_readRawEvent (c0 : Con) (s0 : WinSt) (t : WTerm) (len : Nat)
    (timeout : Option Duration) :
    Does u t.inH (WQuiet c0 s0) (winReadRawEvent t len timeout) (fun _ => WQuiet c0 s0)
      (fun _ => WQuiet c0 s0) := by
  unfold winReadRawEvent
  refine Does.bind (does_wait c0 s0 t timeout) fun b => Does.ite (fun _ => ?_) (fun _ => ?_)
  · exact Does.mono (Does.pure _) (fun _ _ h => h) (fun _ _ _ h => h.2) (fun _ _ _ h => h)
  · refine Does.bind (does_takeCtrl c0 s0) fun r => ?_
    cases r with
    | some _ => exact Does.mono (Does.pure _) (fun _ _ h => h) (fun _ _ _ h => h.2) (fun _ _ _ h => h)
    | none =>
      refine Does.bind (R := fun _ => WQuiet c0 s0) (Does.call (WQuiet.stable c0 s0) _ ?_ (fun _ => WQuiet.stable c0 s0)) fun a => ?_
      · intro c s a hp hq
        rcases hq with rfl | ⟨l, rfl, -⟩
        · exact ⟨c, rfl, hp⟩
        · exact ⟨_, rfl, WQuiet.stable c0 s0 c s _ s hp (.refl s)⟩
      · cases a with
        | recs l =>
          exact Does.ite (fun _ => Does.mono (Does.pure _) (fun _ _ h => h) (fun _ _ _ h => h.2)
            (fun _ _ _ h => h)) (fun _ => .halt _)
        | fail => exact Does.mono (Does.throw _) (fun _ _ h => h) (fun _ _ _ h => h) (fun _ _ _ h => h.2)
        | ok => exact .halt _
        | timeout => exact .halt _
        | handle _ => exact .halt _
        | mode _ => exact .halt _
        | info _ => exact .halt _
        | wrote _ => exact .halt _
        | chars _ => exact .halt _

theorem does_readEvent (c0 : Con) (s0 : WinSt) (t : WTerm) (timeout : Option Duration) :
    Does u t.inH (WQuiet c0 s0) (winReadEvent t timeout) (fun _ => WQuiet c0 s0)
      (fun _ => WQuiet c0 s0) := by
  unfold winReadEvent
  refine Does.bind (does_readRawEvent c0 s0 t 1 timeout) fun r => ?_
  have hp : ∀ a : Option Event, Does u t.inH (WQuiet c0 s0) (pure a : WM _) (fun _ => WQuiet c0 s0)
      (fun _ => WQuiet c0 s0) := fun a =>
    Does.mono (Does.pure _) (fun _ _ h => h) (fun _ _ _ h => h.2) (fun _ _ _ h => h)
  split
  · split
    · exact hp _
    · refine Does.bind Does.get fun s => ?_
      refine Does.bind (R := fun _ => WQuiet c0 s0) (Does.mono (Does.ofPanics _) (fun _ _ h => h.2)
        (fun _ _ _ h => h.2) (fun _ _ _ h => h)) fun v => ?_
      obtain ⟨ev, rd⟩ := v
      refine Does.bind (R := fun _ => WQuiet c0 s0) (Does.modify (fun _ => rfl) fun c s h => h) fun _ => hp _
  · exact hp _

end Mortal
