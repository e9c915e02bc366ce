import Verif.Spec.SignalSet

/-! # Lemmas about SignalSet bits -/

namespace Mortal
open Spec

namespace SignalSet

theorem contains_eq (s : SignalSet) (x : Signal) :
    s.contains x = s.bits.getLsbD x.discr := by
  unfold contains Signal.asBit
  rw [← BitVec.twoPow_eq, BitVec.and_twoPow]
  cases x <;> simp [Signal.discr] <;> split <;> simp_all [BitVec.twoPow]

theorem asBit_bit (x y : Signal) : (x.asBit).getLsbD y.discr = decide (y = x) := by
  cases x <;> cases y <;> rfl

theorem allBits_bit (x : Signal) : Signal.allBits.getLsbD x.discr = true := by
  cases x <;> rfl

theorem discr_lt (x : Signal) : x.discr < 8 := by cases x <;> decide

/-- Sets built by the API never have a bit outside the six signals. -/
def WF (s : SignalSet) : Prop := ∀ i, s.bits.getLsbD i = true → ∃ x : Signal, x.discr = i

theorem allBits_wf (i : Nat) (h : Signal.allBits.getLsbD i = true) :
    ∃ x : Signal, x.discr = i := by
  have hi : i < 8 := BitVec.lt_of_getLsbD h
  match i, hi, h with
  | 0, _, _ => exact ⟨.break, rfl⟩
  | 1, _, _ => exact ⟨.continue, rfl⟩
  | 2, _, _ => exact ⟨.interrupt, rfl⟩
  | 3, _, _ => exact ⟨.resize, rfl⟩
  | 4, _, _ => exact ⟨.suspend, rfl⟩
  | 5, _, _ => exact ⟨.quit, rfl⟩
  | 6, _, h => exact absurd h (by decide)
  | 7, _, h => exact absurd h (by decide)

theorem insert_contains (s : SignalSet) (a x : Signal) :
    (s.insert a).contains x = (decide (x = a) || s.contains x) := by
  simp [contains_eq, insert, asBit_bit, Bool.or_comm]

theorem remove_contains (s : SignalSet) (a x : Signal) :
    (s.remove a).contains x = (s.contains x && !decide (x = a)) := by
  rw [← asBit_bit]
  simp [contains_eq, remove, discr_lt]

theorem extend_contains (l : List Signal) (s : SignalSet) (x : Signal) :
    (s.extend l).contains x = (decide (x ∈ l) || s.contains x) := by
  induction l generalizing s with
  | nil => simp [extend]
  | cons a l ih =>
    have : s.extend (a :: l) = (s.insert a).extend l := rfl
    rw [this, ih, insert_contains]
    simp only [List.mem_cons]
    by_cases h1 : x = a <;> by_cases h2 : x ∈ l <;> simp [h1, h2]

theorem wf_insert {s : SignalSet} (h : s.WF) (a : Signal) : (s.insert a).WF := by
  intro i hi
  simp only [insert, BitVec.getLsbD_or, Bool.or_eq_true] at hi
  rcases hi with hi | hi
  · exact h i hi
  · refine ⟨a, ?_⟩
    unfold Signal.asBit at hi
    rw [← BitVec.twoPow_eq, BitVec.getLsbD_twoPow] at hi
    simp at hi; exact hi.2

theorem wf_new : new.WF := by intro i hi; simp [new] at hi

theorem wf_extend {s : SignalSet} (h : s.WF) (l : List Signal) : (s.extend l).WF := by
  induction l generalizing s with
  | nil => exact h
  | cons a l ih => exact ih (wf_insert h a)

theorem wf_inverse (s : SignalSet) : s.inverse.WF := by
  intro i hi
  simp only [inverse, BitVec.getLsbD_and, Bool.and_eq_true] at hi
  exact allBits_wf i hi.2

theorem wf_remove {s : SignalSet} (h : s.WF) (a : Signal) : (s.remove a).WF := by
  intro i hi
  simp only [remove, BitVec.getLsbD_and, Bool.and_eq_true] at hi
  exact h i hi.1

theorem wf_run (e : SigExpr) : e.run.WF := by
  induction e with
  | new => exact wf_new
  | all => exact fun i hi => allBits_wf i hi
  | ofSignal s => exact wf_insert wf_new s
  | orSignals a b => exact wf_insert (wf_insert wf_new a) b
  | notSignal a => exact wf_inverse _
  | collect l => exact wf_extend wf_new l
  | insert e s ih => exact wf_insert ih s
  | remove e s ih => exact wf_remove ih s
  | set e s b ih =>
    simp only [SigExpr.run, set]; split
    · exact wf_insert ih s
    · exact wf_remove ih s
  | extend e l ih => exact wf_extend ih l
  | union a b iha ihb =>
    intro i hi
    simp only [SigExpr.run, union, BitVec.getLsbD_or, Bool.or_eq_true] at hi
    exact hi.elim (iha i) (ihb i)
  | inter a b iha ihb =>
    intro i hi
    simp only [SigExpr.run, intersection, BitVec.getLsbD_and, Bool.and_eq_true] at hi
    exact iha i hi.1
  | symm a b iha ihb =>
    intro i hi
    simp only [SigExpr.run, symmetricDifference, BitVec.getLsbD_xor] at hi
    by_cases h : a.run.bits.getLsbD i = true
    · exact iha i h
    · refine ihb i ?_
      simp_all
  | diff a b iha ihb =>
    intro i hi
    simp only [SigExpr.run, difference, BitVec.getLsbD_and, Bool.and_eq_true] at hi
    exact iha i hi.1
  | inverse a ih => exact wf_inverse _

theorem ext_of_wf {a b : SignalSet} (ha : a.WF) (hb : b.WF)
    (h : ∀ x, a.contains x = b.contains x) : a = b := by
  have : a.bits = b.bits := by
    apply BitVec.eq_of_getLsbD_eq
    intro i _
    by_cases h1 : a.bits.getLsbD i = true
    · obtain ⟨x, rfl⟩ := ha i h1
      have := h x; simpa [contains_eq] using this
    · by_cases h2 : b.bits.getLsbD i = true
      · obtain ⟨x, rfl⟩ := hb i h2
        have := h x; simpa [contains_eq] using this
      · simp_all
  cases a; cases b; simp_all

end SignalSet

/-- Letters that occur in exactly one signal name (and not in `SignalSet(`). -/
def debugLetters (s : List Char) : List Bool :=
  ['B', 'C', 'I', 'R', 'd', 'Q'].map fun c => s.contains c

theorem debugLetters_debug (s : SignalSet) :
    debugLetters s.debug = SignalSet.SIGNALS.map s.contains := by
  unfold SignalSet.debug
  simp only [SignalSet.SIGNALS, SignalSet.debugLoop, List.map]
  cases s.contains .break <;> cases s.contains .continue <;> cases s.contains .interrupt <;>
    cases s.contains .resize <;> cases s.contains .suspend <;> cases s.contains .quit <;> rfl

end Mortal
