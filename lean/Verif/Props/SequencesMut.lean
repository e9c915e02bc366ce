import Verif.Lemmas.SequencesMut

/-! # C74: keys changed through `sequences_mut` -/

namespace Mortal
open Spec
variable {V : Type}

/-- **C74.** The crate's search keeps the promise of the standard library, whatever the slice of
sorted keys. -/
theorem C74_search_contract (m : SequenceMap V) (h : InOrder m.sequences) (key : Bytes) :
    SearchOk m.sequences key (m.search key) := by
  rw [inOrder_iff] at h
  obtain ⟨l⟩ := m
  simp only at h ⊢
  unfold SequenceMap.search
  dsimp only
  generalize hf : SequenceMap.cmpAt ⟨l⟩ key = f
  have fval : ∀ i (hi : i < l.length), f i = cmpBytes (l[i]).1 key := by
    intro i hi; subst hf; simp [SequenceMap.cmpAt, List.getElem?_eq_getElem hi]
  have hmono : ∀ i j, i < j → j < l.length →
      (f j = .lt → f i = .lt) ∧ (f i = .gt → f j = .gt) := by
    intro i j hij hj
    have hs := List.pairwise_iff_getElem.mp h i j (by omega) hj hij
    rw [fval i (by omega), fval j hj]
    cases e : cmpBytes (l[i]).1 (l[j]).1 with
    | gt => exact absurd e hs
    | eq => rw [cmpBytes_eq_iff] at e; rw [e]; exact ⟨id, id⟩
    | lt =>
      refine ⟨cmpBytes_trans e, fun hg => ?_⟩
      rw [cmpBytes_gt_iff] at hg ⊢
      exact cmpBytes_trans hg e
  have spec := bsearchLoop_spec f l.length l.length 0 l.length (Nat.le_refl _) (Nat.zero_le _)
    (Nat.le_refl _) hmono (by intro i hi; omega) (by intro i h1 h2; omega)
  cases hb : bsearchLoop f l.length 0 l.length with
  | found n =>
    rw [hb] at spec
    obtain ⟨hn, he⟩ := spec
    rw [fval n hn, cmpBytes_eq_iff] at he
    exact ⟨(l[n]).2, by rw [List.getElem?_eq_getElem hn, ← he]⟩
  | missing n =>
    rw [hb] at spec
    obtain ⟨hn, hlt, hgt⟩ := spec
    refine ⟨hn, ?_, ?_⟩
    · intro e he
      obtain ⟨i, hi, rfl⟩ := List.mem_iff_getElem.mp he
      rw [List.length_take] at hi
      rw [List.getElem_take, ← cmpBytes_lt_iff, ← fval i (by omega)]
      exact hlt i (by omega)
    · intro e he
      obtain ⟨i, hi, rfl⟩ := List.mem_iff_getElem.mp he
      rw [List.length_drop] at hi
      rw [List.getElem_drop, ← cmpBytes_lt_iff, ← cmpBytes_gt_iff, ← fval (n + i) (by omega)]
      exact hgt (n + i) (by omega) (by omega)

/-- **C74.** The program rewrites the slice, keys and values, and leaves the keys strictly
increasing. From then on, whatever the history of calls, nothing panics, the map is exactly the map
of the pairs that were written, and the slice stays strictly sorted. (Missing: slices that are
sorted but have equal keys, which the documentation also allows; see `C74_removed_key_stays`.) -/
theorem C74_rewritten_map_partial (m : SequenceMap V) (l : List (Bytes × V))
    (hl : l.length = m.sequences.length) (hs : l.Pairwise fun a b => a.1 < b.1)
    (ops : List (MapOp V)) :
    ∃ m', codeRun (m.sequencesMut l) ops = some (m', (specRun (firstVal l) ops).2) ∧
      (∀ k, m'.get k = some ((specRun (firstVal l) ops).1 k)) ∧
      (∀ q, ∃ r, m'.find q = some r ∧ FindSpec (specRun (firstVal l) ops).1 q r) ∧
      m'.sequences.Pairwise (fun a b => a.1 < b.1) ∧
      ∀ k v, (k, v) ∈ m'.sequences ↔ (specRun (firstVal l) ops).1 k = some v := by
  have h0 : m.sequencesMut l = ⟨l⟩ := if_pos hl
  have h1 : Sorted (SequenceMap.mk l).sequences :=
    List.Pairwise.imp (fun h => (cmpBytes_lt_iff _ _).mpr h) hs
  obtain ⟨m', h4, h5, h6⟩ := run_history ops ⟨l⟩ h1
  refine ⟨m', h0 ▸ h4, fun k => ?_, fun q => ?_, ?_, fun k v => ?_⟩
  · rw [get_eq m' h5, h6]
  · obtain ⟨r, hr, hf⟩ := find_spec m' h5 q
    exact ⟨r, hr, h6 ▸ hf⟩
  · exact List.Pairwise.imp (fun h => (cmpBytes_lt_iff _ _).mp h) h5
  · rw [← firstVal_some h5]
    show absMap m' k = some v ↔ _
    rw [h6]

/-- **C74.** The slice is sorted, with equal keys or without, and a search keeps the promise of the
standard library. `get` gives the value of one of the pairs with the key, and `None` if there is
none. -/
theorem C74_get_any (m : SequenceMap V) (key : Bytes) (r : SearchRes)
    (hr : SearchOk m.sequences key r) :
    (∃ v, m.getAt r = some (some v) ∧ (key, v) ∈ m.sequences) ∨
    (m.getAt r = some none ∧ ∀ e ∈ m.sequences, e.1 ≠ key) := by
  unfold SequenceMap.getAt
  rcases searchOk_cases _ _ _ hr with ⟨p, q, v, e, rfl⟩ | ⟨p, q, e, rfl, hp, hq⟩
  · dsimp only
    rw [e, get_mid]
    exact .inl ⟨v, rfl, by simp⟩
  · refine .inr ⟨rfl, ?_⟩
    rw [e]
    intro x hx
    rcases List.mem_append.mp hx with hx | hx
    · exact fun h => bytes_lt_irrefl key (h ▸ hp x hx)
    · exact fun h => bytes_lt_irrefl key (h ▸ hq x hx)

/-- **C74.** On a sorted slice `insert` puts the pair in the place of one of the pairs with the key,
whose value it returns, or where it belongs if there is none; the slice stays sorted. -/
theorem C74_insert_any (m : SequenceMap V) (hs : InOrder m.sequences) (key : Bytes) (v : V)
    (r : SearchRes) (hr : SearchOk m.sequences key r) :
    ∃ p q, InOrder (p ++ (key, v) :: q) ∧
      ((∃ w, m.sequences = p ++ (key, w) :: q ∧
          m.insertAt key v r = some (⟨p ++ (key, v) :: q⟩, some w)) ∨
       (m.sequences = p ++ q ∧ (∀ e ∈ m.sequences, e.1 ≠ key) ∧
          m.insertAt key v r = some (⟨p ++ (key, v) :: q⟩, none))) := by
  unfold SequenceMap.insertAt
  rcases searchOk_cases _ _ _ hr with ⟨p, q, w, e, rfl⟩ | ⟨p, q, e, rfl, hp, hq⟩
  · refine ⟨p, q, ?_, .inl ⟨w, e, ?_⟩⟩
    · rw [e, inOrder_append, inOrder_cons] at hs
      rw [inOrder_append, inOrder_cons]
      refine ⟨hs.1, hs.2.1, fun a ha b hb => ?_⟩
      rcases List.mem_cons.mp hb with rfl | hb
      · exact hs.2.2 a ha (key, w) (List.mem_cons_self ..)
      · exact hs.2.2 a ha b (List.mem_cons_of_mem _ hb)
    · dsimp only
      rw [e, get_mid, set_mid]; rfl
  · refine ⟨p, q, ?_, .inr ⟨e, ?_, ?_⟩⟩
    · rw [e, inOrder_append] at hs
      rw [inOrder_append, inOrder_cons]
      refine ⟨hs.1, ⟨fun b hb => bytes_lt_asymm (hq b hb), hs.2.1⟩, fun a ha b hb => ?_⟩
      rcases List.mem_cons.mp hb with rfl | hb
      · exact bytes_lt_asymm (hp a ha)
      · exact hs.2.2 a ha b hb
    · rw [e]
      intro x hx
      rcases List.mem_append.mp hx with hx | hx
      · exact fun h => bytes_lt_irrefl key (h ▸ hp x hx)
      · exact fun h => bytes_lt_irrefl key (h ▸ hq x hx)
    · dsimp only
      rw [e, vecInsert_mid]; rfl

/-- **C74.** On a sorted slice `remove` takes out one of the pairs with the key and returns it, or
changes nothing if there is none; the slice stays sorted. -/
theorem C74_remove_any (m : SequenceMap V) (hs : InOrder m.sequences) (key : Bytes)
    (r : SearchRes) (hr : SearchOk m.sequences key r) :
    (∃ p q v, m.sequences = p ++ (key, v) :: q ∧ InOrder (p ++ q) ∧
      m.removeAt r = some (⟨p ++ q⟩, some (key, v))) ∨
    ((∀ e ∈ m.sequences, e.1 ≠ key) ∧ m.removeAt r = some (m, none)) := by
  unfold SequenceMap.removeAt
  rcases searchOk_cases _ _ _ hr with ⟨p, q, w, e, rfl⟩ | ⟨p, q, e, rfl, hp, hq⟩
  · refine .inl ⟨p, q, w, e, ?_, ?_⟩
    · rw [e, inOrder_append, inOrder_cons] at hs
      rw [inOrder_append]
      exact ⟨hs.1, hs.2.1.2, fun a ha b hb => hs.2.2 a ha b (List.mem_cons_of_mem _ hb)⟩
    · dsimp only
      rw [e, vecRemove_mid]; rfl
  · refine .inr ⟨?_, rfl⟩
    rw [e]
    intro x hx
    rcases List.mem_append.mp hx with hx | hx
    · exact fun h => bytes_lt_irrefl key (h ▸ hp x hx)
    · exact fun h => bytes_lt_irrefl key (h ▸ hq x hx)

/-- **C74.** When a key occurs twice in the sorted slice, it is still there after it has been
removed: the condition that `sequences_mut` documents is not enough for the map to function.
This holds whichever of the pairs the searches find. -/
theorem C74_removed_key_stays (m : SequenceMap V) (hs : InOrder m.sequences) (key : Bytes)
    (h2 : 2 ≤ (m.sequences.filter fun e => e.1 = key).length) (r : SearchRes)
    (hr : SearchOk m.sequences key r) :
    ∃ m' v, m.removeAt r = some (m', some (key, v)) ∧
      ∀ r', SearchOk m'.sequences key r' → ∃ w, m'.getAt r' = some (some w) := by
  rcases C74_remove_any m hs key r hr with ⟨p, q, v, e, _, h⟩ | ⟨h, _⟩
  · refine ⟨_, v, h, fun r' hr' => ?_⟩
    rcases C74_get_any _ key r' hr' with ⟨w, hw, _⟩ | ⟨_, hn⟩
    · exact ⟨w, hw⟩
    · rw [e] at h2
      have hz : ((p ++ q).filter fun e => e.1 = key) = [] := by
        rw [List.filter_eq_nil_iff]; intro x hx; simpa using hn x hx
      rw [List.filter_append, List.append_eq_nil_iff] at hz
      rw [List.filter_append, List.filter_cons, hz.1, if_pos (by simp), hz.2] at h2
      simp at h2
  · have hz : (m.sequences.filter fun e => e.1 = key) = [] := by
      rw [List.filter_eq_nil_iff]; intro x hx; simpa using h x hx
    rw [hz] at h2; simp at h2

/-- **C74.** On a sorted slice `find` does not panic. `NotFound`, `Incomplete` and `Found` mean what
they are documented to mean; `Undecided` means that there is a longer key or that the key itself
occurs again. -/
theorem C74_find_any (m : SequenceMap V) (hs : InOrder m.sequences) (q : Bytes) (r : SearchRes)
    (hr : SearchOk m.sequences q r) : ∃ a, m.findAt q r = some a ∧ FindAny m.sequences q a := by
  unfold SequenceMap.findAt
  rcases searchOk_cases _ _ _ hr with ⟨p, t, v, e, rfl⟩ | ⟨p, t, e, rfl, hp, ht⟩
  · rw [e, inOrder_append, inOrder_cons] at hs
    obtain ⟨_, ⟨ht, hst⟩, hpt⟩ := hs
    have hpq : ∀ e ∈ p, q <+: e.1 → e.1 = q := fun x hx hpre =>
      eq_of_prefix_not_lt hpre (hpt x hx _ (List.mem_cons_self ..))
    rw [e]
    dsimp only
    rw [if_pos rfl, get_mid, show p ++ (q, v) :: t = (p ++ [(q, v)]) ++ t by simp,
      List.getElem?_append_right (by simp)]
    simp only [List.length_append, List.length_cons, List.length_nil, Nat.zero_add, Nat.sub_self]
    have hmem : ∀ x, x ∈ p ++ [(q, v)] ++ t ↔ x ∈ p ∨ x = (q, v) ∨ x ∈ t := by
      intro x; simp
    cases t with
    | nil =>
      refine ⟨_, rfl, by simp, fun x hx hpre => ?_⟩
      rcases (hmem x).mp hx with h | h | h
      · exact hpq x h hpre
      · rw [h]
      · cases h
    | cons x t =>
      obtain ⟨kx, vx⟩ := x
      simp only [List.getElem?_cons_zero]
      cases hsw : startsWith kx q with
      | true =>
        rw [startsWith_iff] at hsw
        refine ⟨_, rfl, by simp, ?_⟩
        by_cases hk : kx = q
        · right
          rw [List.filter_append, List.filter_append, List.length_append, List.length_append,
            List.filter_cons, if_pos (by simp), List.filter_cons, if_pos (by simpa using hk)]
          simp only [List.length_cons]; omega
        · exact .inl ⟨(kx, vx), by simp, hsw, hk⟩
      | false =>
        refine ⟨_, rfl, by simp, fun x hx hpre => ?_⟩
        have hkx : cmpBytes q kx = .lt := by
          have h1 : ¬ kx < q := ht _ (List.mem_cons_self ..)
          rw [← cmpBytes_lt_iff, ← cmpBytes_gt_iff] at h1
          cases hc : cmpBytes q kx with
          | lt => rfl
          | gt => exact absurd hc h1
          | eq =>
            rw [cmpBytes_eq_iff] at hc
            rw [← hc, (startsWith_iff q q).mpr (List.prefix_refl q)] at hsw
            cases hsw
        have hno : ¬ q <+: kx := fun h => by rw [← startsWith_iff, hsw] at h; cases h
        rcases (hmem x).mp hx with h | h | h
        · exact hpq x h hpre
        · rw [h]
        · rcases List.mem_cons.mp h with rfl | h
          · exact absurd hpre hno
          · have h1 := (inOrder_cons.mp hst).1 x h
            rw [← cmpBytes_lt_iff, ← cmpBytes_gt_iff] at h1
            cases hc : cmpBytes kx x.1 with
            | gt => exact absurd hc h1
            | eq => rw [cmpBytes_eq_iff] at hc; exact absurd (hc ▸ hpre) hno
            | lt => exact absurd (prefix_between hkx hc hpre) hno
  · rw [e, inOrder_append] at hs
    rw [e]
    dsimp only
    rw [if_neg (by simp), List.getElem?_append_right (by simp)]
    simp only [Nat.add_zero, Nat.sub_self]
    have hpq : ∀ e ∈ p, ¬ q <+: e.1 := fun x hx hpre =>
      prefix_not_lt hpre ((cmpBytes_lt_iff _ _).mpr (hp x hx))
    cases t with
    | nil =>
      refine ⟨_, rfl, fun x hx => ?_⟩
      rcases List.mem_append.mp hx with h | h
      · exact hpq x h
      · cases h
    | cons x t =>
      obtain ⟨kx, vx⟩ := x
      simp only [List.getElem?_cons_zero]
      have hkx := (cmpBytes_lt_iff _ _).mpr (ht _ (List.mem_cons_self ..))
      cases hsw : startsWith kx q with
      | true =>
        rw [startsWith_iff] at hsw
        refine ⟨_, rfl, fun x hx hk => ?_, (kx, vx), by simp, hsw⟩
        rcases List.mem_append.mp hx with h | h
        · exact hpq x h (hk ▸ List.prefix_refl _)
        · exact bytes_lt_irrefl q (hk ▸ ht x h)
      | false =>
        have hno : ¬ q <+: kx := fun h => by rw [← startsWith_iff, hsw] at h; cases h
        refine ⟨_, rfl, fun x hx hpre => ?_⟩
        rcases List.mem_append.mp hx with h | h
        · exact hpq x h hpre
        · rcases List.mem_cons.mp h with rfl | h
          · exact hno hpre
          · have h1 := (inOrder_cons.mp hs.2.1).1 x h
            rw [← cmpBytes_lt_iff, ← cmpBytes_gt_iff] at h1
            cases hc : cmpBytes kx x.1 with
            | gt => exact absurd hc h1
            | eq => rw [cmpBytes_eq_iff] at hc; exact absurd (hc ▸ hpre) hno
            | lt => exact absurd (prefix_between hkx hc hpre) hno

/-- **C74.** `Undecided` can be wrong when keys are equal: in a slice of three times the same key
nothing is longer than the key, but when the search finds the middle one (as the halving search
does) the answer is `Undecided`. -/
theorem C74_undecided_wrong (k : Bytes) (a b c : V) :
    InOrder [(k, a), (k, b), (k, c)] ∧
    (SequenceMap.mk [(k, a), (k, b), (k, c)]).find k = some (.undecided b) ∧
    ∀ e ∈ [(k, a), (k, b), (k, c)], e.1 = k := by
  refine ⟨?_, ?_, by simp⟩
  · simp [InOrder]
  · have h : (SequenceMap.mk [(k, a), (k, b), (k, c)]).search k = .found 1 := by
      simp [SequenceMap.search, bsearchLoop, SequenceMap.cmpAt, cmpBytes_self]
    rw [SequenceMap.find, h]
    simp [SequenceMap.findAt, (startsWith_iff k k).mpr (List.prefix_refl k)]

/-- The keys "a", "b", "c" are rewritten as "a", "ab", "b" (strictly sorted) and the map goes on
with them; and as "a", "a", "b" (sorted), after which "a" is removed and still there. -/
example :
    let m := SequenceMap.mk [([97], 1), ([98], 2), ([99], 3)]
    let l := [([97], 1), ([97, 98], 2), ([98], 3)]
    let l' := [([97], 1), ([97], 2), ([98], 3)]
    l.length = m.sequences.length ∧ (l.Pairwise fun a b => a.1 < b.1) ∧
    (m.sequencesMut l).find [97] = some (.undecided 1) ∧
    InOrder (m.sequencesMut l').sequences ∧
    2 ≤ ((m.sequencesMut l').sequences.filter fun e => e.1 = [97]).length ∧
    ((m.sequencesMut l').remove [97]).bind (fun r => r.1.get [97]) = some (some 1) := by
  refine ⟨rfl, by decide, by decide, ?_, by decide, by decide⟩
  unfold InOrder; decide

end Mortal
