import Verif.Lemmas.SequenceMap
import Verif.Spec.SequencesMut

/-! # Sorted slices with equal keys -/

namespace Mortal
open Spec
variable {V : Type}

theorem inOrder_iff (l : List (Bytes × V)) : InOrder l ↔ WSorted l := by
  unfold InOrder WSorted
  constructor <;> intro h <;> refine h.imp ?_ <;> intro a b hab
  · rw [Ne, cmpBytes_gt_iff, cmpBytes_lt_iff]; exact hab
  · rw [Ne, cmpBytes_gt_iff, cmpBytes_lt_iff] at hab; exact hab

/-- What the two answers of a search mean for a sorted slice. -/
theorem searchOk_cases (l : List (Bytes × V)) (key : Bytes) (r : SearchRes) (h : SearchOk l key r) :
    (∃ p q v, l = p ++ (key, v) :: q ∧ r = .found p.length) ∨
    (∃ p q, l = p ++ q ∧ r = .missing p.length ∧ (∀ e ∈ p, e.1 < key) ∧ ∀ e ∈ q, key < e.1) := by
  cases r with
  | found n =>
    obtain ⟨v, hv⟩ := h
    obtain ⟨hn, he⟩ := List.getElem?_eq_some_iff.mp hv
    refine .inl ⟨l.take n, l.drop (n + 1), v, ?_, ?_⟩
    · rw [← he, List.getElem_cons_drop, List.take_append_drop]
    · rw [List.length_take, Nat.min_eq_left (by omega)]
  | missing n =>
    obtain ⟨hn, h1, h2⟩ := h
    exact .inr ⟨l.take n, l.drop n, (List.take_append_drop _ _).symm, by
      rw [List.length_take, Nat.min_eq_left hn], h1, h2⟩

theorem inOrder_append {p q : List (Bytes × V)} :
    InOrder (p ++ q) ↔ InOrder p ∧ InOrder q ∧ ∀ a ∈ p, ∀ b ∈ q, ¬ b.1 < a.1 :=
  List.pairwise_append

theorem inOrder_cons {x : Bytes × V} {q : List (Bytes × V)} :
    InOrder (x :: q) ↔ (∀ b ∈ q, ¬ b.1 < x.1) ∧ InOrder q :=
  List.pairwise_cons

theorem bytes_lt_irrefl (a : Bytes) : ¬ a < a := by
  rw [← cmpBytes_lt_iff, cmpBytes_self]; simp

theorem bytes_lt_asymm {a b : Bytes} (h : a < b) : ¬ b < a := by
  rw [← cmpBytes_lt_iff] at h ⊢
  rw [← cmpBytes_gt_iff, h]; simp

/-- A key that begins with `q` and is not above it is `q`. -/
theorem eq_of_prefix_not_lt {q k : Bytes} (h : q <+: k) (h' : ¬ q < k) : k = q := by
  have h1 := prefix_not_lt h
  rw [← cmpBytes_lt_iff, ← cmpBytes_gt_iff] at h'
  cases hc : cmpBytes k q with
  | lt => exact absurd hc h1
  | gt => exact absurd hc h'
  | eq => exact (cmpBytes_eq_iff _ _).mp hc

end Mortal
