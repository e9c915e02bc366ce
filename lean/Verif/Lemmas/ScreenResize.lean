import Verif.Lemmas.ScreenSession
import Verif.Props.Signals

/-! # Lemmas about resize events on a screen -/

namespace Mortal
open Spec

theorem peek_no_resize {m : SequenceMap SeqData} {buf : Bytes} {ev : Event} {n : Nat}
    (h : peekEvent m buf = some (.event ev n)) (z : Size) : ev ≠ .resize z := by
  unfold peekEvent at h
  cases hu : utf8Prefix buf with
  | none => rw [hu] at h; cases h
  | some t =>
    rw [hu] at h
    cases t with
    | nil => cases h
    | cons ch t =>
      dsimp only at h
      cases hp : prefixesP (ch :: t) with
      | none => rw [hp] at h; cases h
      | some pfxs =>
        rw [hp] at h
        dsimp only [Option.bind_eq_bind, Option.bind_some] at h
        cases hl : scanPrefixes m pfxs none with
        | none => rw [hl] at h; cases h
        | some last =>
          rw [hl] at h
          dsimp only [Option.bind_some] at h
          rcases last with _ | ⟨seq, k | _⟩
          · cases h; exact fun e => by cases e
          · cases h; exact fun e => by cases e
          · dsimp only at h
            cases hm : parseMouseData (buf.drop seq.length) with
            | none => rw [hm] at h; cases h
            | some o =>
              rw [hm] at h
              dsimp only [Option.bind_some] at h
              rcases o with _ | ⟨e, l⟩
              · cases h; exact fun e => by cases e
              · cases h; exact fun e => by cases e

theorem tryReadM_no_resize {env : REnv} {s s' : US} {z : Size} :
    tryReadM env s ≠ .ok (some (.resize z)) s' := by
  intro h
  unfold tryReadM at h
  rw [M.bind_apply] at h
  dsimp only [getS] at h
  cases ht : tryRead env.seqs s.inBuf with
  | none => rw [ht] at h; cases h
  | some r =>
    rw [ht] at h
    obtain ⟨p, b⟩ := r
    cases p with
    | err => cases h
    | none => cases h
    | event ev n =>
      have h : Res.ok (some ev) _ = Res.ok (some (Event.resize z)) s' := h
      cases h
      unfold tryRead at ht
      split at ht
      · cases ht
      · cases hp : peekEvent env.seqs s.inBuf with
        | none => rw [hp] at ht; cases ht
        | some q =>
          rw [hp] at ht
          cases q with
          | none => cases ht
          | err => cases ht
          | event ev' n' =>
            dsimp only [Option.bind_eq_bind, Option.bind_some] at ht
            split at ht
            · cases ht
            · cases ht; exact peek_no_resize hp z rfl

/-- `read_input` yields no events but signals. -/
theorem readInput_event {env : REnv} {n : Nat} {t : Option Nat} {s s' : US} {ev : Event}
    (h : readInput env n t s = .ok (.event ev) s') : ∃ sig, ev = .signal sig := by
  have loop : ∀ (f : Nat) (s s' : US), readLoop n f s = .ok (.event ev) s' → ∃ sig, ev = .signal sig := by
    intro f
    induction f with
    | zero => intro s s' h; cases h
    | succ f ih =>
      intro s s' h
      obtain ⟨r, s1, _, h⟩ := M.bind_ok h
      cases r with
      | done b => cases h
      | eintr e =>
        obtain ⟨o, s2, _, h⟩ := M.bind_ok h
        cases o with
        | none => exact ih _ _ h
        | some sig => cases h; exact ⟨sig, rfl⟩
  obtain ⟨o, s1, _, h⟩ := M.bind_ok h
  cases o with
  | some sig => cases h; exact ⟨sig, rfl⟩
  | none =>
    obtain ⟨b, s2, _, h⟩ := M.bind_ok h
    cases b with
    | false => cases h
    | true =>
      obtain ⟨o, s3, _, h⟩ := M.bind_ok h
      cases o with
      | some sig => cases h; exact ⟨sig, rfl⟩
      | none => exact loop _ _ _ h

theorem handle_resize {env : REnv} {sig : Signal} {s s' : US} {z : Size}
    (h : handleSignal env sig s = .ok (some (.resize z)) s') : z = s'.size := by
  have rep : ∀ sg, (do
      if (← getS).report.contains sg then pure (some (Event.signal sg)) else pure none : M _) s ≠
      .ok (some (.resize z)) s' := by
    intro sg h
    rw [M.bind_apply] at h
    dsimp only [getS] at h
    split at h <;> cases h
  cases sig with
  | resize => have := C33_resize env s s' _ h; cases this; rfl
  | interrupt => exact (rep _ h).elim
  | suspend => exact (rep _ h).elim
  | quit => exact (rep _ h).elim
  | «break» => exact (rep _ h).elim
  | «continue» =>
    obtain ⟨_, s1, _, h⟩ := M.bind_ok h
    rw [M.bind_apply] at h
    dsimp only [getS] at h
    split at h <;> cases h

theorem readEvent_resize {env : REnv} {t : Option Nat} {s s' : US} {z : Size}
    (h : readEvent env t s = .ok (some (.resize z)) s') : z = s'.size := by
  obtain ⟨o, s1, h1, h⟩ := M.bind_ok h
  cases o with
  | some ev => cases h; exact (tryReadM_no_resize h1).elim
  | none =>
    obtain ⟨r, s2, h2, h⟩ := M.bind_ok h
    cases r with
    | nothing => cases h
    | raw b => exact (tryReadM_no_resize h).elim
    | event ev =>
      have hev : ∃ sig, ev = .signal sig := by
        have h2 : (match readInput env (env.spare s1.inBuf.length) t { s1 with inBuf := [] } with
          | .ok (.raw b) s' => .ok (.raw b) { s' with inBuf := s1.inBuf ++ b }
          | .ok r s' => .ok r { s' with inBuf := s1.inBuf }
          | .err e s' => .err e { s' with inBuf := s1.inBuf }
          | .stop w => .stop w : Res InRes) = .ok (.event ev) s2 := h2
        cases hr : readInput env (env.spare s1.inBuf.length) t { s1 with inBuf := [] } with
        | err e x => rw [hr] at h2; cases h2
        | stop w => rw [hr] at h2; cases h2
        | ok r x =>
          rw [hr] at h2
          cases r with
          | raw b => cases h2
          | nothing => cases h2
          | event e => cases h2; exact readInput_event hr
      obtain ⟨sig, rfl⟩ := hev
      exact handle_resize h

theorem readRaw_resize {env : REnv} {n : Nat} {t : Option Nat} {s s' : US} {z : Size}
    (h : readRaw env n t s = .ok (.event (.resize z)) s') : z = s'.size := by
  unfold readRaw at h
  rw [M.bind_apply] at h
  dsimp only [getS] at h
  split at h
  · cases h
  · obtain ⟨r, s1, h1, h⟩ := M.bind_ok h
    cases r with
    | nothing => cases h
    | raw b => cases h
    | event ev =>
      obtain ⟨sig, rfl⟩ := readInput_event h1
      obtain ⟨o, s2, h2, h⟩ := M.bind_ok h
      cases o with
      | none => cases h
      | some ev => cases h; exact handle_resize h2

theorem updateSize_some {d d' : SData} {z : Size} (h : d.updateSize z = some d') :
    d'.buf.size = z ∧ d'.clear = true := by
  unfold SData.updateSize at h
  cases hb : d.buf.resize z with
  | none => rw [hb] at h; cases h
  | some b =>
    rw [hb] at h
    cases h
    refine ⟨?_, rfl⟩
    unfold Buf.resize at hb
    cases hr : Buf.resizeBuffer d.buf.buffer d.buf.size z with
    | none => rw [hr] at hb; cases hb
    | some l => rw [hr] at hb; cases hb; rfl

end Mortal
