import Verif.Lemmas.Sending
import Verif.Props.Writer

/-! # C23 for all answers of the operating system: what a flush and a large write send -/

namespace Mortal
open Spec

/-- C23: a flush succeeds exactly if the answers, up to some point, contain no error and add up to
the number of bytes pending, at that point for the first time. Then nothing is pending any more,
and the device has received what these calls took, each from the beginning of the buffer. -/
theorem C23_flush_ok_iff (s s' : WS) : flush s = .ok s' ↔
    ∃ used rest, s.os = used ++ rest ∧ GoesOn s.pending used ∧
      (takenBy s.pending used).length = s.pending.length ∧
      s' = { s with os := rest, pending := [], dev := s.dev ++ takenBy s.pending used } := by
  constructor
  · intro h
    unfold flush at h
    rcases writeData_cases s.pending s.os s.dev with
      ⟨used, rest, h1, h2, h3, e⟩ | ⟨used, r, rest, er, h1, h2, h3, h4, e⟩ | ⟨h1, h2, e⟩
    · rw [e] at h
      dsimp only at h
      rw [if_neg (by omega)] at h
      refine ⟨used, rest, h1, h2, h3, ?_⟩
      simpa using h.symm
    · rw [e] at h
      dsimp only at h
      split at h <;> cases h
    · rw [e] at h; cases h
  · rintro ⟨used, rest, h1, h2, h3, rfl⟩
    unfold flush
    rw [h1, writeData_completes h2 h3]
    dsimp only
    rw [if_neg (by omega)]
    simp

/-- C23: a flush fails exactly if an error comes first while fewer bytes were taken than are
pending. As many bytes are dropped from the pending ones as were taken. -/
theorem C23_flush_err_iff (s s' : WS) (e : IoErr) : flush s = .err e s' ↔
    ∃ used r rest, s.os = used ++ r :: rest ∧ GoesOn s.pending used ∧ stopsWith r = some e ∧
      (takenBy s.pending used).length < s.pending.length ∧
      s' = { s with os := rest, pending := s.pending.drop (takenBy s.pending used).length,
                    dev := s.dev ++ takenBy s.pending used } := by
  constructor
  · intro h
    unfold flush at h
    rcases writeData_cases s.pending s.os s.dev with
      ⟨used, rest, h1, h2, h3, e1⟩ | ⟨used, r, rest, er, h1, h2, h3, h4, e1⟩ | ⟨h1, h2, e1⟩
    · rw [e1] at h
      dsimp only at h
      rw [if_neg (by omega)] at h
      cases h
    · rw [e1] at h
      dsimp only at h
      split at h
      · cases h
      · simp only [Outcome.err.injEq] at h
        obtain ⟨rfl, rfl⟩ := h
        exact ⟨used, r, rest, h1, h2, h4, by omega, rfl⟩
    · rw [e1] at h; cases h
  · rintro ⟨used, r, rest, h1, h2, h3, h4, rfl⟩
    unfold flush
    rw [h1, writeData_fails h2 (by omega) h3]
    dsimp only
    rw [if_neg (by omega)]

/-- C23: a flush panics exactly if an error comes first and more bytes were taken by then than are
pending. -/
theorem C23_flush_panics_iff (s : WS) : flush s = .stop .panic ↔
    ∃ used r rest, s.os = used ++ r :: rest ∧ GoesOn s.pending used ∧ stopsWith r ≠ none ∧
      s.pending.length < (takenBy s.pending used).length := by
  constructor
  · intro h
    unfold flush at h
    rcases writeData_cases s.pending s.os s.dev with
      ⟨used, rest, h1, h2, h3, e1⟩ | ⟨used, r, rest, er, h1, h2, h3, h4, e1⟩ | ⟨h1, h2, e1⟩
    · rw [e1] at h
      dsimp only at h
      rw [if_neg (by omega)] at h
      cases h
    · rw [e1] at h
      dsimp only at h
      split at h
      · next hgt => exact ⟨used, r, rest, h1, h2, by rw [h4]; simp, hgt⟩
      · cases h
    · rw [e1] at h; cases h
  · rintro ⟨used, r, rest, h1, h2, h3, h4⟩
    obtain ⟨e, he⟩ := Option.ne_none_iff_exists'.mp h3
    unfold flush
    rw [h1, writeData_fails h2 (by omega) he]
    dsimp only
    rw [if_pos h4]

/-- C23: a flush does not return exactly as long as no error has come and the bytes taken have at
no time been as many as are pending: fewer, or, after a short write, more and more. -/
theorem C23_flush_waits_iff (s : WS) : flush s = .stop .blocked ↔
    GoesOn s.pending s.os ∧ (takenBy s.pending s.os).length ≠ s.pending.length := by
  constructor
  · intro h
    unfold flush at h
    rcases writeData_cases s.pending s.os s.dev with
      ⟨used, rest, h1, h2, h3, e1⟩ | ⟨used, r, rest, er, h1, h2, h3, h4, e1⟩ | ⟨h1, h2, e1⟩
    · rw [e1] at h
      dsimp only at h
      rw [if_neg (by omega)] at h
      cases h
    · rw [e1] at h
      dsimp only at h
      split at h <;> cases h
    · exact ⟨h1, h2⟩
  · rintro ⟨h1, h2⟩
    unfold flush
    rw [writeData_waits h1 h2]

/-- C23, exactly when it holds for a flush: what the device has followed by what is pending stays
the same if and only if the bytes taken are the first bytes pending; and so it does if at most one
of the calls took anything, in particular whenever the first call that takes anything takes all, or
is followed by an error. -/
theorem C23_kept_iff_partial (s s' : WS) (h : flush s = .ok s' ∨ ∃ e, flush s = .err e s') :
    ∃ used, used <+: s.os ∧ GoesOn s.pending used ∧
      s'.dev = s.dev ++ takenBy s.pending used ∧
      s'.pending = s.pending.drop (takenBy s.pending used).length ∧
      (s'.dev ++ s'.pending = s.dev ++ s.pending ↔
        takenBy s.pending used = s.pending.take (takenBy s.pending used).length) ∧
      ((used.filter fun r => decide (takenOf s.pending r ≠ [])).length ≤ 1 →
        s'.dev ++ s'.pending = s.dev ++ s.pending) := by
  have key : ∃ used, used <+: s.os ∧ GoesOn s.pending used ∧
      s'.dev = s.dev ++ takenBy s.pending used ∧
      s'.pending = s.pending.drop (takenBy s.pending used).length := by
    rcases h with h | ⟨e, h⟩
    · obtain ⟨used, rest, h1, h2, h3, rfl⟩ := (C23_flush_ok_iff s s').mp h
      exact ⟨used, ⟨rest, h1.symm⟩, h2, rfl, by rw [h3]; simp⟩
    · obtain ⟨used, r, rest, h1, h2, -, -, rfl⟩ := (C23_flush_err_iff s s' e).mp h
      exact ⟨used, ⟨r :: rest, h1.symm⟩, h2, rfl, rfl⟩
  obtain ⟨used, h1, h2, h3, h4⟩ := key
  have hiff : s'.dev ++ s'.pending = s.dev ++ s.pending ↔
      takenBy s.pending used = s.pending.take (takenBy s.pending used).length := by
    rw [h3, h4, List.append_assoc, List.append_cancel_left_eq]
    constructor
    · intro hh
      have := congrArg (List.take (takenBy s.pending used).length) hh
      rw [List.take_left] at this
      exact this
    · intro hh
      conv => lhs; lhs; rw [hh]
      exact List.take_append_drop ..
  refine ⟨used, h1, h2, h3, h4, hiff, fun hone => hiff.mpr ?_⟩
  have hf : takenBy s.pending used =
      takenBy s.pending (used.filter fun r => decide (takenOf s.pending r ≠ [])) := by
    clear h1 h2 h3 h4 hiff hone
    induction used with
    | nil => rfl
    | cons r l ih =>
      rw [takenBy_cons, ih, List.filter_cons]
      by_cases hr : takenOf s.pending r = []
      · rw [hr]; simp
      · rw [if_pos (by simpa using hr), takenBy_cons]
  have hpre : ∀ r, takenOf s.pending r <+: s.pending := by
    intro r
    cases r with
    | all => exact List.prefix_refl _
    | wrote n => exact List.take_prefix ..
    | eintr => exact List.nil_prefix
    | fail => exact List.nil_prefix
  rw [hf]
  generalize used.filter (fun r => decide (takenOf s.pending r ≠ [])) = l at hone ⊢
  match l, hone with
  | [], _ => simp [takenBy]
  | [r], _ =>
    rw [takenBy_cons]
    simp only [takenBy, List.flatMap_nil, List.append_nil]
    exact List.prefix_iff_eq_take.mp (hpre r)
  | _ :: _ :: _, hone => simp at hone

/-- C23: a text larger than the buffer, with nothing pending, is sent directly, in the same way,
except that it never panics: it is accepted exactly if the answers add up to its length. -/
theorem C23_large_text (s : WS) (buf : Bytes) (hs : s.pending = []) (hb : s.capacity < buf.length)
    (s' : WS) :
    (writeBytes buf s = .ok s' ↔
      ∃ used rest, s.os = used ++ rest ∧ GoesOn buf used ∧
        (takenBy buf used).length = buf.length ∧
        s' = { s with os := rest, dev := s.dev ++ takenBy buf used, log := s.log ++ [.text buf] }) ∧
    (∀ e, writeBytes buf s = .err e s' ↔
      ∃ used r rest, s.os = used ++ r :: rest ∧ GoesOn buf used ∧
        (takenBy buf used).length ≠ buf.length ∧ stopsWith r = some e ∧
        s' = { s with os := rest, dev := s.dev ++ takenBy buf used }) ∧
    writeBytes buf s ≠ .stop .panic := by
  have hfl : flush s = .ok s := by
    refine (C23_flush_ok_iff s s).mpr ⟨[], s.os, rfl, ⟨by simp, by simp⟩, by rw [hs]; rfl, ?_⟩
    obtain ⟨fg, bg, style, pending, capacity, dev, os, log⟩ := s
    cases hs
    simp [takenBy]
  have hw : writeBytes buf s = match writeData buf s.os 0 s.dev with
      | .blocked => .stop .blocked
      | .done _ os dev none => .ok { s with os := os, dev := dev, log := s.log ++ [.text buf] }
      | .done _ os dev (some e) => .err e { s with os := os, dev := dev } := by
    unfold writeBytes
    rw [if_pos (by omega), hfl]
    show (if buf.length > s.capacity then _ else _) = _
    rw [if_pos hb]
    cases writeData buf s.os 0 s.dev with
    | blocked => rfl
    | done n os dev r => cases r <;> rfl
  rw [hw]
  refine ⟨⟨fun h => ?_, ?_⟩, fun e => ⟨fun h => ?_, ?_⟩, fun h => ?_⟩
  · rcases writeData_cases buf s.os s.dev with
      ⟨used, rest, h1, h2, h3, e1⟩ | ⟨used, r, rest, er, h1, h2, h3, h4, e1⟩ | ⟨h1, h2, e1⟩
    · rw [e1] at h
      exact ⟨used, rest, h1, h2, h3, by simpa using h.symm⟩
    · rw [e1] at h; cases h
    · rw [e1] at h; cases h
  · rintro ⟨used, rest, h1, h2, h3, rfl⟩
    rw [h1, writeData_completes h2 h3]
  · rcases writeData_cases buf s.os s.dev with
      ⟨used, rest, h1, h2, h3, e1⟩ | ⟨used, r, rest, er, h1, h2, h3, h4, e1⟩ | ⟨h1, h2, e1⟩
    · rw [e1] at h; cases h
    · rw [e1] at h
      simp only [Outcome.err.injEq] at h
      obtain ⟨rfl, rfl⟩ := h
      exact ⟨used, r, rest, h1, h2, h3, h4, rfl⟩
    · rw [e1] at h; cases h
  · rintro ⟨used, r, rest, h1, h2, h3, h4, rfl⟩
    rw [h1, writeData_fails h2 h3 h4]
  · rcases writeData_cases buf s.os s.dev with
      ⟨used, rest, h1, h2, h3, e1⟩ | ⟨used, r, rest, er, h1, h2, h3, h4, e1⟩ | ⟨h1, h2, e1⟩ <;>
    · rw [e1] at h; cases h

/-- Four flushes of `abc`: the answers 2, 1 complete it, as `ab` and `a`; 2, then an error, leaves
`c`; 2, 2, then an error, panics; 2, 2 goes on. -/
example :
    let s : List WriteRes → WS := fun os => { WS.new os with pending := [97, 98, 99] }
    flush (s [.wrote 2, .eintr, .wrote 1]) =
      .ok { s [] with pending := [], dev := [97, 98, 97] } ∧
    flush (s [.wrote 2, .fail]) = .err .os { s [] with pending := [99], dev := [97, 98] } ∧
    flush (s [.wrote 2, .wrote 2, .wrote 0]) = .stop .panic ∧
    flush (s [.wrote 2, .wrote 2]) = .stop .blocked := by decide

example : (WS.new [.all]).pending = [] ∧
    (WS.new [.all]).capacity < (List.replicate 9000 (97 : UInt8)).length := by
  rw [List.length_replicate]; decide

end Mortal
