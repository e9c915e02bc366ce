import Verif.Lemmas.SequenceMap

/-! # C01–C04: SequenceMap -/

namespace Mortal
open Spec
variable {V : Type}

/-- **C01.** However the map was made and whatever history of calls follows, the crate never
panics, returns exactly what a mathematical map returns, and `get` answers the mathematical map. -/
theorem C01_finite_map (i : MapInit V) (ops : List (MapOp V)) :
    ∃ m₀ m, i.run = some m₀ ∧ codeRun m₀ ops = some (m, (specRun i.spec ops).2) ∧
      ∀ k, m.get k = some ((specRun i.spec ops).1 k) := by
  obtain ⟨m₀, h1, h2, h3⟩ := init_spec i
  obtain ⟨m, h4, h5, h6⟩ := run_history ops m₀ h2
  refine ⟨m₀, m, h1, h3 ▸ h4, fun k => ?_⟩
  rw [get_eq m h5, h6, h3]

/-- **C02.** `sequences()` is strictly increasing in byte order after any construction and history
(so no key occurs twice), and it lists exactly the pairs of the mathematical map. -/
theorem C02_sequences_sorted (i : MapInit V) (ops : List (MapOp V)) (m₀ m : SequenceMap V)
    (os : List (MapOut V)) (h₀ : i.run = some m₀) (h : codeRun m₀ ops = some (m, os)) :
    m.sequences.Pairwise (fun a b => a.1 < b.1) ∧
    ∀ k v, (k, v) ∈ m.sequences ↔ (specRun i.spec ops).1 k = some v := by
  obtain ⟨m₀', h1, h2, h3⟩ := init_spec i
  rw [h₀] at h1
  obtain rfl := Option.some.inj h1
  obtain ⟨m', h4, h5, h6⟩ := run_history ops m₀ h2
  rw [h] at h4
  obtain ⟨rfl, rfl⟩ := Prod.mk.inj (Option.some.inj h4)
  refine ⟨List.Pairwise.imp (fun h => (cmpBytes_lt_iff _ _).mp h) h5, fun k v => ?_⟩
  rw [← firstVal_some h5, ← h3, ← h6]

/-- **C03.** On every map reachable through the API `find` does not panic and its answer is exactly
the documented classification. -/
theorem C03_find_classifies (i : MapInit V) (ops : List (MapOp V)) (m₀ m : SequenceMap V)
    (os : List (MapOut V)) (h₀ : i.run = some m₀) (h : codeRun m₀ ops = some (m, os)) (q : Bytes) :
    ∃ r, m.find q = some r ∧ FindSpec (specRun i.spec ops).1 q r := by
  obtain ⟨m₀', h1, h2, h3⟩ := init_spec i
  rw [h₀] at h1
  obtain rfl := Option.some.inj h1
  obtain ⟨m', h4, h5, h6⟩ := run_history ops m₀ h2
  rw [h] at h4
  obtain ⟨rfl, rfl⟩ := Prod.mk.inj (Option.some.inj h4)
  rw [← h3, ← h6]
  exact find_spec m h5 q

/-- **C03.** The classification determines the answer: no other answer is admissible. -/
theorem C03_classification_unique (m : PMap V) (q : Bytes) (r r' : FindResult V)
    (h : FindSpec m q r) (h' : FindSpec m q r') : r = r' := by
  cases r <;> cases r' <;> simp only [FindSpec] at h h' <;> first
    | rfl
    | (obtain ⟨_, k, w, hk, hp⟩ := h'; exact absurd hp (h k w hk))
    | (obtain ⟨_, k, w, hk, hp⟩ := h; exact absurd hp (h' k w hk))
    | exact absurd (List.prefix_refl q) (h q _ h'.1)
    | exact absurd (List.prefix_refl q) (h' q _ h.1)
    | (have := h.1.symm.trans h'.1; cases this; done)
    | (have := h.1.symm.trans h'.1; rw [Option.some.inj this]; done)
    | (obtain ⟨_, k, w, hk, hp, hne⟩ := h'; exact absurd (h.2 k w hk hp) hne)
    | (obtain ⟨_, k, w, hk, hp, hne⟩ := h; exact absurd (h'.2 k w hk hp) hne)

/-- **C03.** `cloned` gives the same answer. -/
theorem C03_cloned_same (r : FindResult V) : r.cloned = r := by cases r <;> rfl

/-- **C04.** `From<Vec>` keeps the first value of every key and nothing else. -/
theorem C04_from_vec_first (l : List (Bytes × V)) (k : Bytes) :
    (SequenceMap.fromVec l).get k = some (firstVal l k) := by
  rw [get_eq _ (fromVec_spec l).1, (fromVec_spec l).2]

/-- **C04.** Collecting keeps the last value of every key and nothing else, and never panics. -/
theorem C04_collect_last (l : List (Bytes × V)) :
    ∃ m, SequenceMap.fromIter l = some m ∧ ∀ k, m.get k = some (lastVal l k) := by
  obtain ⟨m, h1, h2, h3⟩ := init_spec (.collect l)
  exact ⟨m, h1, fun k => by rw [get_eq m h2, h3]; rfl⟩

/-- A history with a duplicate in the vector, a replaced value and a removal: the hypotheses of
C02/C03 are met and the results are as expected. -/
example : ∃ m₀ m os, (MapInit.fromVec [([2, 1], 10), ([2], 20), ([2, 1], 30)]).run = some m₀ ∧
    codeRun m₀ [.insert [2] 21, .entryModifyOrInsert [2, 1] (· + 1) 0 (· * 2), .insert [5] 50,
      .remove [5], .entryLook [5], .entryIntoKey [7], .writeValues (fun k v => v + k.length)] = some (m, os) ∧
    os.length = 7 ∧
    m.sequences = [([2], 22), ([2, 1], 24)] ∧ m.find [2] = some (.undecided 22) ∧
    m.find [2, 1] = some (.found 24) ∧ m.find [5] = some .notFound ∧
    m.find [] = some .incomplete := by
  refine ⟨⟨[([2], 20), ([2, 1], 10)]⟩, ⟨[([2], 22), ([2, 1], 24)]⟩, [.old (some 20), .value [2, 1] 11,
    .old none, .pair (some ([5], 50)), .look [5] none,
    .back (some [7]), .old none], rfl, rfl, ?_⟩
  decide

end Mortal
