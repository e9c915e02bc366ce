import Verif.Lemmas.SignalSet

/-! # C05, C06: SignalSet -/

namespace Mortal
open Spec

/-- **C05.** For every set a program over the public API can build, `contains` is membership in
the mathematical set. -/
theorem C05_contains_iff_mem (e : SigExpr) (x : Signal) :
    e.run.contains x = true ↔ e.mem x := by
  induction e with
  | new => simp [SigExpr.run, SigExpr.mem, SignalSet.contains_eq, SignalSet.new]
  | all => simp [SigExpr.run, SigExpr.mem, SignalSet.contains_eq, SignalSet.all,
      SignalSet.allBits_bit]
  | ofSignal s =>
    simp [SigExpr.run, SigExpr.mem, SignalSet.ofSignal, SignalSet.insert_contains]
    simp [SignalSet.contains_eq, SignalSet.new]
  | orSignals a b =>
    simp [SigExpr.run, SigExpr.mem, SignalSet.orSignals, SignalSet.insert_contains]
    simp [SignalSet.contains_eq, SignalSet.new, or_comm]
  | notSignal a =>
    have h : (SignalSet.ofSignal a).contains x = decide (x = a) := by
      simp [SignalSet.ofSignal, SignalSet.insert_contains]
      simp [SignalSet.contains_eq, SignalSet.new]
    rw [SignalSet.contains_eq] at h
    simp only [SigExpr.run, SigExpr.mem, SignalSet.notSignal, SignalSet.inverse,
      SignalSet.contains_eq, BitVec.getLsbD_and, BitVec.getLsbD_not, h, SignalSet.allBits_bit,
      SignalSet.discr_lt]
    simp
  | collect l =>
    simp [SigExpr.run, SigExpr.mem, SignalSet.fromList, SignalSet.extend_contains]
    simp [SignalSet.contains_eq, SignalSet.new]
  | insert e s ih => simp [SigExpr.run, SigExpr.mem, SignalSet.insert_contains, ih]
  | remove e s ih => simp [SigExpr.run, SigExpr.mem, SignalSet.remove_contains, ih]
  | set e s b ih =>
    cases b <;>
      simp only [SigExpr.run, SigExpr.mem, SignalSet.set, SignalSet.insert_contains,
        SignalSet.remove_contains, if_true, Bool.false_eq_true, if_false, Bool.or_eq_true,
        Bool.and_eq_true, ih] <;>
      by_cases hx : x = s <;> simp [hx]
  | extend e l ih => simp [SigExpr.run, SigExpr.mem, SignalSet.extend_contains, ih]
  | union a b iha ihb =>
    rw [SigExpr.mem, ← iha, ← ihb]
    simp [SigExpr.run, SignalSet.union, SignalSet.contains_eq]
  | inter a b iha ihb =>
    rw [SigExpr.mem, ← iha, ← ihb]
    simp [SigExpr.run, SignalSet.intersection, SignalSet.contains_eq]
  | symm a b iha ihb =>
    rw [SigExpr.mem, ← iha, ← ihb]
    simp only [SigExpr.run, SignalSet.symmetricDifference, SignalSet.contains_eq,
      BitVec.getLsbD_xor]
    cases a.run.bits.getLsbD x.discr <;> cases b.run.bits.getLsbD x.discr <;> simp
  | diff a b iha ihb =>
    rw [SigExpr.mem, ← iha, ← ihb]
    simp [SigExpr.run, SignalSet.difference, SignalSet.contains_eq, SignalSet.discr_lt]
  | inverse a ih =>
    rw [SigExpr.mem, ← ih]
    simp [SigExpr.run, SignalSet.inverse, SignalSet.contains_eq, SignalSet.discr_lt,
      SignalSet.allBits_bit]

/-- **C05.** Two sets built by the API compare equal exactly when they have the same members. -/
theorem C05_eq_iff_same_members (a b : SigExpr) :
    a.run = b.run ↔ ∀ x, a.mem x ↔ b.mem x := by
  constructor
  · intro h x; rw [← C05_contains_iff_mem, ← C05_contains_iff_mem, h]
  · intro h
    refine SignalSet.ext_of_wf (SignalSet.wf_run a) (SignalSet.wf_run b) fun x => ?_
    rw [Bool.eq_iff_iff, C05_contains_iff_mem, C05_contains_iff_mem]; exact h x

/-- **C05.** `contains_all` is inclusion. -/
theorem C05_containsAll_iff (a b : SigExpr) :
    a.run.containsAll b.run = true ↔ ∀ x, b.mem x → a.mem x := by
  have key : a.run.containsAll b.run = true ↔ (SigExpr.inter a b).run = b.run := by
    unfold SignalSet.containsAll
    rw [beq_iff_eq]
    constructor
    · intro h; show SignalSet.mk _ = _; rw [h]
    · intro h; exact congrArg SignalSet.bits h
  rw [key, C05_eq_iff_same_members]
  simp [SigExpr.mem]

/-- **C05.** `is_empty` holds exactly when there is no member. -/
theorem C05_isEmpty_iff (a : SigExpr) : a.run.isEmpty = true ↔ ∀ x, ¬ a.mem x := by
  have key : a.run.isEmpty = true ↔ a.run = SigExpr.new.run := by
    unfold SignalSet.isEmpty
    rw [beq_iff_eq]
    constructor
    · intro h; show SignalSet.mk a.run.bits = _; rw [h]; rfl
    · intro h; rw [h]; rfl
  rw [key, C05_eq_iff_same_members]
  simp [SigExpr.mem]

/-- **C05.** `intersects` holds exactly when there is a common member. -/
theorem C05_intersects_iff (a b : SigExpr) :
    a.run.intersects b.run = true ↔ ∃ x, a.mem x ∧ b.mem x := by
  have h := C05_isEmpty_iff (.inter a b)
  have key : a.run.intersects b.run = !(SigExpr.inter a b).run.isEmpty := by
    simp [SignalSet.intersects, SigExpr.run, SignalSet.isEmpty, SignalSet.intersection, bne]
  rw [key, Bool.not_eq_true', ← Bool.not_eq_true, h]
  simp [SigExpr.mem]

/-- Hypothesis-free statements; a concrete non-trivial run. -/
example : (SigExpr.diff .all (.orSignals .quit .suspend)).run.contains .resize = true ∧
    (SigExpr.diff .all (.orSignals .quit .suspend)).run.contains .quit = false := by decide

/-- **C06.** The Debug text of a set is exactly its members' names, in declaration order, joined by
` | ` inside `SignalSet(...)`. -/
theorem C06_debug_text (e : SigExpr) :
    e.run.debug = render ((declared.filter fun p => e.run.contains p.1).map Prod.snd) := by
  unfold SignalSet.debug
  generalize e.run = s
  simp only [SignalSet.SIGNALS, SignalSet.debugLoop, declared, List.filter]
  cases s.contains .break <;> cases s.contains .continue <;> cases s.contains .interrupt <;>
    cases s.contains .resize <;> cases s.contains .suspend <;> cases s.contains .quit <;> rfl

/-- **C06.** Each member is among the printed names, once, and nothing else is. -/
theorem C06_names_are_members (e : SigExpr) (x : Signal) (n : List Char)
    (h : (x, n) ∈ declared) :
    ((declared.filter fun p => e.run.contains p.1).map Prod.snd).count n =
      if e.run.contains x then 1 else 0 := by
  simp only [declared, List.filter]
  generalize e.run = s
  cases h1 : s.contains .break <;> cases h2 : s.contains .continue <;>
    cases h3 : s.contains .interrupt <;> cases h4 : s.contains .resize <;>
    cases h5 : s.contains .suspend <;> cases h6 : s.contains .quit <;>
    simp only [declared, List.mem_cons, Prod.mk.injEq, List.not_mem_nil, or_false] at h <;>
    (rcases h with ⟨rfl, rfl⟩ | ⟨rfl, rfl⟩ | ⟨rfl, rfl⟩ | ⟨rfl, rfl⟩ | ⟨rfl, rfl⟩ | ⟨rfl, rfl⟩) <;>
    simp only [h1, h2, h3, h4, h5, h6] <;> rfl

/-- **C06.** Two sets print the same text exactly when they are equal. -/
theorem C06_debug_injective (a b : SigExpr) : a.run.debug = b.run.debug ↔ a.run = b.run := by
  constructor
  · intro h
    have h' := congrArg debugLetters h
    rw [debugLetters_debug, debugLetters_debug] at h'
    simp only [SignalSet.SIGNALS, List.map, List.cons.injEq, and_true] at h'
    obtain ⟨h1, h2, h3, h4, h5, h6⟩ := h'
    refine SignalSet.ext_of_wf (SignalSet.wf_run a) (SignalSet.wf_run b) fun x => ?_
    cases x <;> assumption
  · intro h; rw [h]

/-- A concrete printed set. -/
example : (SigExpr.orSignals .quit .continue).run.debug = "SignalSet(Continue | Quit)".toList := by
  decide

end Mortal
