import Verif.Spec.Sending

/-! # Lemmas on `write_data` -/

namespace Mortal
open Spec

theorem takenBy_cons (buf : Bytes) (r : WriteRes) (l : List WriteRes) :
    takenBy buf (r :: l) = takenOf buf r ++ takenBy buf l := by
  simp [takenBy]

/-- One answer that is not an error. -/
theorem writeData_step {buf : Bytes} {r : WriteRes} (hr : stopsWith r = none) (os : List WriteRes)
    {off : Nat} (hoff : off ≠ buf.length) (dev : Bytes) :
    writeData buf (r :: os) off dev =
      writeData buf os (off + (takenOf buf r).length) (dev ++ takenOf buf r) := by
  conv => lhs; unfold writeData
  rw [if_neg hoff]
  cases r with
  | all => rfl
  | wrote n =>
    cases n with
    | zero => cases hr
    | succ n => dsimp only; rw [if_neg (by omega)]; simp [takenOf, List.length_take]
  | eintr => simp [takenOf]
  | fail => cases hr

theorem writeData_stop {buf : Bytes} {r : WriteRes} {e : IoErr} (hr : stopsWith r = some e)
    (os : List WriteRes) {off : Nat} (hoff : off ≠ buf.length) (dev : Bytes) :
    writeData buf (r :: os) off dev = .done off os dev (some e) := by
  unfold writeData
  rw [if_neg hoff]
  cases r with
  | all => cases hr
  | wrote n =>
    cases n with
    | zero => cases hr; rfl
    | succ n => cases hr
  | eintr => cases hr
  | fail => cases hr; rfl

/-- Some answers none of which ends the loop. -/
theorem writeData_append {buf : Bytes} (used rest : List WriteRes) (off : Nat) (dev : Bytes)
    (h1 : ∀ r ∈ used, stopsWith r = none)
    (h2 : ∀ k, k < used.length → off + (takenBy buf (used.take k)).length ≠ buf.length) :
    writeData buf (used ++ rest) off dev =
      writeData buf rest (off + (takenBy buf used).length) (dev ++ takenBy buf used) := by
  induction used generalizing off dev with
  | nil => simp [takenBy]
  | cons r used ih =>
    have h0 : off ≠ buf.length := by simpa [takenBy] using h2 0 (by simp)
    rw [List.cons_append, writeData_step (h1 r (by simp)) _ h0, ih]
    · rw [takenBy_cons]
      simp [Nat.add_assoc]
    · exact fun x hx => h1 x (by simp [hx])
    · intro k hk
      have := h2 (k + 1) (by simp; omega)
      rw [List.take_succ_cons, takenBy_cons, List.length_append] at this
      omega

/-- How the answers of the operating system begin: they complete the block, or an error ends the
sending, or they run out. -/
theorem answers_cases (buf : Bytes) (os : List WriteRes) (off : Nat) :
    (∃ used rest, os = used ++ rest ∧ (∀ r ∈ used, stopsWith r = none) ∧
      (∀ k, k < used.length → off + (takenBy buf (used.take k)).length ≠ buf.length) ∧
      off + (takenBy buf used).length = buf.length) ∨
    (∃ used r rest e, os = used ++ r :: rest ∧ (∀ r ∈ used, stopsWith r = none) ∧
      (∀ k, k < used.length → off + (takenBy buf (used.take k)).length ≠ buf.length) ∧
      off + (takenBy buf used).length ≠ buf.length ∧ stopsWith r = some e) ∨
    ((∀ r ∈ os, stopsWith r = none) ∧
      (∀ k, k < os.length → off + (takenBy buf (os.take k)).length ≠ buf.length) ∧
      off + (takenBy buf os).length ≠ buf.length) := by
  induction os generalizing off with
  | nil =>
    by_cases h : off = buf.length
    · exact .inl ⟨[], [], rfl, by simp, by simp, by simpa [takenBy] using h⟩
    · exact .inr (.inr ⟨by simp, by simp, by simpa [takenBy] using h⟩)
  | cons r os ih =>
    by_cases h : off = buf.length
    · exact .inl ⟨[], r :: os, rfl, by simp, by simp, by simpa [takenBy] using h⟩
    · cases hr : stopsWith r with
      | some e =>
        exact .inr (.inl ⟨[], r, os, e, rfl, by simp, by simp, by simpa [takenBy] using h, hr⟩)
      | none =>
        have hearly : ∀ used : List WriteRes,
            (∀ k, k < used.length →
              off + (takenOf buf r).length + (takenBy buf (used.take k)).length ≠ buf.length) →
            ∀ k, k < (r :: used).length →
              off + (takenBy buf ((r :: used).take k)).length ≠ buf.length := by
          intro used hu k hk
          cases k with
          | zero => simpa [takenBy] using h
          | succ k =>
            have := hu k (by simpa using hk)
            rw [List.take_succ_cons, takenBy_cons, List.length_append]
            omega
        have hall : ∀ used : List WriteRes, (∀ x ∈ used, stopsWith x = none) →
            ∀ x ∈ r :: used, stopsWith x = none := by
          intro used hu x hx
          rcases List.mem_cons.mp hx with rfl | hx
          · exact hr
          · exact hu x hx
        rcases ih (off + (takenOf buf r).length) with
          ⟨used, rest, rfl, h1, h2, h3⟩ | ⟨used, x, rest, e, rfl, h1, h2, h3, h4⟩ | ⟨h1, h2, h3⟩
        · refine .inl ⟨r :: used, rest, rfl, hall _ h1, hearly _ h2, ?_⟩
          rw [takenBy_cons, List.length_append]; omega
        · refine .inr (.inl ⟨r :: used, x, rest, e, rfl, hall _ h1, hearly _ h2, ?_, h4⟩)
          rw [takenBy_cons, List.length_append]; omega
        · refine .inr (.inr ⟨hall _ h1, hearly _ h2, ?_⟩)
          rw [takenBy_cons, List.length_append]; omega

/-- `write_data` from its start, in the three cases. -/
theorem writeData_cases (buf : Bytes) (os : List WriteRes) (dev : Bytes) :
    (∃ used rest, os = used ++ rest ∧ GoesOn buf used ∧ (takenBy buf used).length = buf.length ∧
      writeData buf os 0 dev = .done buf.length rest (dev ++ takenBy buf used) none) ∨
    (∃ used r rest e, os = used ++ r :: rest ∧ GoesOn buf used ∧
      (takenBy buf used).length ≠ buf.length ∧ stopsWith r = some e ∧
      writeData buf os 0 dev =
        .done (takenBy buf used).length rest (dev ++ takenBy buf used) (some e)) ∨
    (GoesOn buf os ∧ (takenBy buf os).length ≠ buf.length ∧
      writeData buf os 0 dev = .blocked) := by
  rcases answers_cases buf os 0 with
    ⟨used, rest, rfl, h1, h2, h3⟩ | ⟨used, r, rest, e, rfl, h1, h2, h3, h4⟩ | ⟨h1, h2, h3⟩
  · refine .inl ⟨used, rest, rfl, ⟨h1, fun k hk => by simpa using h2 k hk⟩, by simpa using h3, ?_⟩
    rw [writeData_append used rest 0 dev h1 h2]
    unfold writeData
    rw [if_pos h3, h3]
  · refine .inr (.inl ⟨used, r, rest, e, rfl, ⟨h1, fun k hk => by simpa using h2 k hk⟩,
      by simpa using h3, h4, ?_⟩)
    rw [writeData_append used _ 0 dev h1 h2, writeData_stop h4 _ h3, Nat.zero_add]
  · refine .inr (.inr ⟨⟨h1, fun k hk => by simpa using h2 k hk⟩, by simpa using h3, ?_⟩)
    have := writeData_append os [] 0 dev h1 h2
    rw [List.append_nil] at this
    rw [this]
    unfold writeData
    rw [if_neg h3]

theorem writeData_completes {buf : Bytes} {used : List WriteRes} (h : GoesOn buf used)
    (hl : (takenBy buf used).length = buf.length) (rest : List WriteRes) (dev : Bytes) :
    writeData buf (used ++ rest) 0 dev = .done buf.length rest (dev ++ takenBy buf used) none := by
  rw [writeData_append used rest 0 dev h.noErr (fun k hk => by simpa using h.early k hk),
    Nat.zero_add, hl]
  unfold writeData
  rw [if_pos rfl]

theorem writeData_fails {buf : Bytes} {used : List WriteRes} (h : GoesOn buf used)
    (hl : (takenBy buf used).length ≠ buf.length) {r : WriteRes} {e : IoErr}
    (hr : stopsWith r = some e) (rest : List WriteRes) (dev : Bytes) :
    writeData buf (used ++ r :: rest) 0 dev =
      .done (takenBy buf used).length rest (dev ++ takenBy buf used) (some e) := by
  rw [writeData_append used _ 0 dev h.noErr (fun k hk => by simpa using h.early k hk),
    Nat.zero_add, writeData_stop hr _ hl]

theorem writeData_waits {buf : Bytes} {used : List WriteRes} (h : GoesOn buf used)
    (hl : (takenBy buf used).length ≠ buf.length) (dev : Bytes) :
    writeData buf used 0 dev = .blocked := by
  have := writeData_append used [] 0 dev h.noErr (fun k hk => by simpa using h.early k hk)
  rw [List.append_nil] at this
  rw [this, Nat.zero_add]
  unfold writeData
  rw [if_neg hl]

end Mortal
