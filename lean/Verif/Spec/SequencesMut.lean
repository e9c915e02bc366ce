import Verif.Model.SequenceMap

/-! # Slices that the program has rewritten, and what the standard library promises of a search -/

namespace Mortal.Spec
variable {V : Type}

/-- Sorted by key as `sequences_mut` asks: no key is smaller than an earlier one. -/
def InOrder (l : List (Bytes × V)) : Prop := l.Pairwise fun a b => ¬ b.1 < a.1

/-- What the standard library promises of `binary_search_by_key` on a sorted slice: `Ok` is the
index of any one of the elements with the key, `Err` the place where the key belongs. -/
def SearchOk (l : List (Bytes × V)) (key : Bytes) : SearchRes → Prop
  | .found n => ∃ v, l[n]? = some (key, v)
  | .missing n => n ≤ l.length ∧ (∀ e ∈ l.take n, e.1 < key) ∧ ∀ e ∈ l.drop n, key < e.1

/-- What `find` can be relied on to answer when keys may be equal. -/
def FindAny (l : List (Bytes × V)) (q : Bytes) : FindResult V → Prop
  | .notFound => ∀ e ∈ l, ¬ q <+: e.1
  | .incomplete => (∀ e ∈ l, e.1 ≠ q) ∧ ∃ e ∈ l, q <+: e.1
  | .found v => (q, v) ∈ l ∧ ∀ e ∈ l, q <+: e.1 → e.1 = q
  | .undecided v => (q, v) ∈ l ∧
    ((∃ e ∈ l, q <+: e.1 ∧ e.1 ≠ q) ∨ 2 ≤ (l.filter fun e => e.1 = q).length)

end Mortal.Spec
