import Verif.Spec.SequenceMap

/-! # Lemmas about byte-string order, binary search and sorted association lists -/

namespace Mortal
open Spec
variable {V : Type}

theorem cmpBytes_eq_iff (a b : Bytes) : cmpBytes a b = .eq ↔ a = b := by
  induction a generalizing b with
  | nil => cases b <;> simp [cmpBytes]
  | cons x a ih =>
    cases b with
    | nil => simp [cmpBytes]
    | cons y b =>
      unfold cmpBytes
      rw [List.cons.injEq, ← UInt8.toNat_inj]
      split
      · simp; omega
      · split
        · simp; omega
        · rw [ih]; constructor
          · intro h; exact ⟨by omega, h⟩
          · intro h; exact h.2

theorem cmpBytes_lt_iff (a b : Bytes) : cmpBytes a b = .lt ↔ a < b := by
  induction a generalizing b with
  | nil => cases b <;> simp [cmpBytes]
  | cons x a ih =>
    cases b with
    | nil => simp [cmpBytes]
    | cons y b =>
      unfold cmpBytes
      rw [List.cons_lt_cons_iff, ← UInt8.toNat_inj, UInt8.lt_iff_toNat_lt]
      split
      · simp; omega
      · split
        · simp; omega
        · rw [ih]; constructor
          · intro h; exact Or.inr ⟨by omega, h⟩
          · rintro (h | h)
            · omega
            · exact h.2

theorem cmpBytes_gt_iff (a b : Bytes) : cmpBytes a b = .gt ↔ cmpBytes b a = .lt := by
  induction a generalizing b with
  | nil => cases b <;> simp [cmpBytes]
  | cons x a ih =>
    cases b with
    | nil => simp [cmpBytes]
    | cons y b =>
      unfold cmpBytes
      split
      · simp; omega
      · split
        · simp
        · exact ih b

theorem cmpBytes_trans {a b c : Bytes} (h1 : cmpBytes a b = .lt) (h2 : cmpBytes b c = .lt) :
    cmpBytes a c = .lt := by
  induction a generalizing b c with
  | nil =>
    cases b with
    | nil => simp [cmpBytes] at h1
    | cons y b => cases c <;> simp_all [cmpBytes]
  | cons x a ih =>
    cases b with
    | nil => simp [cmpBytes] at h1
    | cons y b =>
      cases c with
      | nil => simp [cmpBytes] at h2
      | cons z c =>
        unfold cmpBytes at h1 h2 ⊢
        split at h1
        · split at h2
          · rw [if_pos (by omega)]
          · split at h2
            · simp at h2
            · rw [if_pos (by omega)]
        · split at h1
          · simp at h1
          · split at h2
            · rw [if_pos (by omega)]
            · split at h2
              · simp at h2
              · rw [if_neg (by omega), if_neg (by omega)]; exact ih h1 h2

theorem cmpBytes_self (a : Bytes) : cmpBytes a a = .eq := (cmpBytes_eq_iff a a).mpr rfl

theorem cmpBytes_ne {a b : Bytes} (h : cmpBytes a b = .lt) : a ≠ b := by
  rintro rfl; rw [cmpBytes_self] at h; cases h

theorem startsWith_iff (a q : Bytes) : startsWith a q = true ↔ q <+: a := by
  induction a generalizing q with
  | nil => cases q <;> simp [startsWith]
  | cons x a ih =>
    cases q with
    | nil => simp [startsWith]
    | cons y q =>
      unfold startsWith
      rw [List.cons_prefix_cons, ← UInt8.toNat_inj]
      split
      · rw [ih]; constructor
        · intro h'; exact ⟨by omega, h'⟩
        · exact And.right
      · simp; intro h; omega

/-- A key that starts with `q` is not below `q`. -/
theorem prefix_not_lt {q k : Bytes} (h : q <+: k) : cmpBytes k q ≠ .lt := by
  induction q generalizing k with
  | nil => cases k <;> simp [cmpBytes]
  | cons x q ih =>
    cases k with
    | nil => simp at h
    | cons y k =>
      rw [List.cons_prefix_cons] at h
      obtain ⟨rfl, h⟩ := h
      unfold cmpBytes
      rw [if_neg (by omega), if_neg (by omega)]
      exact ih h

/-- Between `q` and a key starting with `q` all keys start with `q`. -/
theorem prefix_between {q k k' : Bytes} (h1 : cmpBytes q k = .lt) (h2 : cmpBytes k k' = .lt)
    (h : q <+: k') : q <+: k := by
  induction q generalizing k k' with
  | nil => simp
  | cons x q ih =>
    cases k' with
    | nil => simp at h
    | cons z k' =>
      rw [List.cons_prefix_cons] at h
      obtain ⟨rfl, h⟩ := h
      cases k with
      | nil => simp [cmpBytes] at h1
      | cons y k =>
        unfold cmpBytes at h1 h2
        split at h1
        · rw [if_neg (by omega), if_pos (by omega)] at h2
          cases h2
        · split at h1
          · simp at h1
          · rw [if_neg (by omega), if_neg (by omega)] at h2
            rw [List.cons_prefix_cons, ← UInt8.toNat_inj]
            exact ⟨by omega, ih h1 h2 h⟩

/-- Strictly increasing by key. -/
def Sorted (l : List (Bytes × V)) : Prop := l.Pairwise fun a b => cmpBytes a.1 b.1 = .lt

/-- Contract of the binary-search loop for a comparison that is `lt` below, `gt` above. -/
theorem bsearchLoop_spec (f : Nat → Ordering) (len fuel left right : Nat) (hr : right ≤ len)
    (hlr : left ≤ right) (hfuel : right - left ≤ fuel)
    (hmono : ∀ i j, i < j → j < len → (f j = .lt → f i = .lt) ∧ (f i = .gt → f j = .gt))
    (hl : ∀ i, i < left → f i = .lt) (hrr : ∀ i, right ≤ i → i < len → f i = .gt) :
    match bsearchLoop f fuel left right with
    | .found n => n < len ∧ f n = .eq
    | .missing n => n ≤ len ∧ (∀ i, i < n → f i = .lt) ∧ ∀ i, n ≤ i → i < len → f i = .gt := by
  induction fuel generalizing left right with
  | zero =>
    have : left = right := by omega
    subst this
    exact ⟨hr, hl, hrr⟩
  | succ fuel ih =>
    by_cases hlt : left < right
    · rw [bsearchLoop, if_pos hlt]
      dsimp only
      have hmid : left + (right - left) / 2 < right := by omega
      cases hf : f (left + (right - left) / 2) with
      | lt =>
        dsimp only
        refine ih _ _ hr (by omega) (by omega) ?_ hrr
        intro i hi
        by_cases he : i = left + (right - left) / 2
        · rw [he]; exact hf
        · exact (hmono i _ (by omega) (by omega)).1 hf
      | gt =>
        dsimp only
        refine ih _ _ (by omega) (by omega) (by omega) hl ?_
        intro i hi hi'
        by_cases he : i = left + (right - left) / 2
        · rw [he]; exact hf
        · exact (hmono _ i (by omega) hi').2 hf
      | eq => exact ⟨by omega, hf⟩
    · rw [bsearchLoop, if_neg hlt]
      have : left = right := by omega
      subst this
      exact ⟨hr, hl, hrr⟩

theorem sorted_get {l : List (Bytes × V)} (h : Sorted l) {i j : Nat} (hij : i < j)
    (hj : j < l.length) : cmpBytes (l[i]'(by omega)).1 (l[j]).1 = .lt :=
  List.pairwise_iff_getElem.mp h i j (by omega) hj hij

/-- The two outcomes of `search` on a sorted map, as a splitting of the vector. -/
theorem search_cases (m : SequenceMap V) (h : Sorted m.sequences) (key : Bytes) :
    (∃ p q v, m.sequences = p ++ (key, v) :: q ∧ m.search key = .found p.length) ∨
    (∃ p q, m.sequences = p ++ q ∧ m.search key = .missing p.length ∧
      (∀ e ∈ p, cmpBytes e.1 key = .lt) ∧ (∀ e ∈ q, cmpBytes key e.1 = .lt)) := by
  obtain ⟨l⟩ := m
  simp only at h ⊢
  unfold SequenceMap.search
  dsimp only
  generalize hf : SequenceMap.cmpAt ⟨l⟩ key = f
  have fval : ∀ i (hi : i < l.length), f i = cmpBytes (l[i]).1 key := by
    intro i hi; subst hf; simp [SequenceMap.cmpAt, List.getElem?_eq_getElem hi]
  have hmono : ∀ i j, i < j → j < l.length →
      (f j = .lt → f i = .lt) ∧ (f i = .gt → f j = .gt) := by
    intro i j hij hj
    have hs := sorted_get h hij hj
    rw [fval i (by omega), fval j hj]
    constructor
    · intro hl; exact cmpBytes_trans hs hl
    · intro hg
      rw [cmpBytes_gt_iff] at hg ⊢
      exact cmpBytes_trans hg hs
  have spec := bsearchLoop_spec f l.length l.length 0 l.length (Nat.le_refl _) (Nat.zero_le _)
    (Nat.le_refl _) hmono
    (by intro i hi; omega) (by intro i h1 h2; omega)
  cases hb : bsearchLoop f l.length 0 l.length with
  | found n =>
    rw [hb] at spec
    obtain ⟨hn, he⟩ := spec
    left
    rw [fval n hn, cmpBytes_eq_iff] at he
    refine ⟨l.take n, l.drop (n + 1), (l[n]).2, ?_, ?_⟩
    · have : (key, (l[n]).2) = l[n] := by rw [← he]
      rw [this, List.getElem_cons_drop, List.take_append_drop]
    · rw [List.length_take, Nat.min_eq_left (by omega)]
  | missing n =>
    rw [hb] at spec
    obtain ⟨hn, hlt, hgt⟩ := spec
    right
    refine ⟨l.take n, l.drop n, (List.take_append_drop _ _).symm, ?_, ?_, ?_⟩
    · rw [List.length_take, Nat.min_eq_left hn]
    · intro e he
      obtain ⟨i, hi, rfl⟩ := List.mem_iff_getElem.mp he
      rw [List.length_take] at hi
      rw [List.getElem_take, ← fval i (by omega)]
      exact hlt i (by omega)
    · intro e he
      obtain ⟨i, hi, rfl⟩ := List.mem_iff_getElem.mp he
      rw [List.length_drop] at hi
      rw [List.getElem_drop, ← cmpBytes_gt_iff, ← fval (n + i) (by omega)]
      exact hgt (n + i) (by omega) (by omega)

/-- In a sorted list split at a key, everything before is below, everything after above. -/
theorem sorted_split {p q : List (Bytes × V)} {key : Bytes} {v : V}
    (h : Sorted (p ++ (key, v) :: q)) :
    (∀ e ∈ p, cmpBytes e.1 key = .lt) ∧ (∀ e ∈ q, cmpBytes key e.1 = .lt) ∧ Sorted (p ++ q) := by
  unfold Sorted at h ⊢
  rw [List.pairwise_append, List.pairwise_cons] at h
  obtain ⟨hp, ⟨hq1, hq⟩, hpq⟩ := h
  refine ⟨fun e he => hpq e he _ (List.mem_cons_self ..), hq1, ?_⟩
  rw [List.pairwise_append]
  exact ⟨hp, hq, fun a ha b hb => hpq a ha b (List.mem_cons_of_mem _ hb)⟩

theorem sorted_insert {p q : List (Bytes × V)} {key : Bytes} (v : V) (h : Sorted (p ++ q))
    (hp : ∀ e ∈ p, cmpBytes e.1 key = .lt) (hq : ∀ e ∈ q, cmpBytes key e.1 = .lt) :
    Sorted (p ++ (key, v) :: q) := by
  unfold Sorted at h ⊢
  rw [List.pairwise_append] at h ⊢
  obtain ⟨h1, h2, h3⟩ := h
  refine ⟨h1, List.pairwise_cons.mpr ⟨hq, h2⟩, ?_⟩
  intro a ha b hb
  rcases List.mem_cons.mp hb with rfl | hb
  · exact hp a ha
  · exact h3 a ha b hb

theorem firstVal_append (p q : List (Bytes × V)) (k : Bytes) :
    firstVal (p ++ q) k = (firstVal p k).or (firstVal q k) := by
  induction p with
  | nil => simp [firstVal]
  | cons e p ih =>
    obtain ⟨k', v⟩ := e
    simp only [List.cons_append, firstVal]
    split
    · simp
    · exact ih

theorem firstVal_eq_none {p : List (Bytes × V)} {k : Bytes} (h : ∀ e ∈ p, e.1 ≠ k) :
    firstVal p k = none := by
  induction p with
  | nil => rfl
  | cons e p ih =>
    obtain ⟨k', v⟩ := e
    rw [firstVal, if_neg]
    · exact ih fun e he => h e (List.mem_cons_of_mem _ he)
    · exact fun hk => h _ (List.mem_cons_self ..) hk.symm

/-- Inserting or replacing one key in the middle is a point update. -/
theorem firstVal_mid {p q : List (Bytes × V)} {k : Bytes} (v : V) (hp : ∀ e ∈ p, e.1 ≠ k)
    (k' : Bytes) :
    firstVal (p ++ (k, v) :: q) k' = if k' = k then some v else firstVal (p ++ q) k' := by
  rw [firstVal_append, firstVal, firstVal_append]
  split
  · next h => subst h; rw [firstVal_eq_none hp]; rfl
  · rfl

theorem firstVal_some {l : List (Bytes × V)} (hs : Sorted l) {k : Bytes} {v : V} :
    firstVal l k = some v ↔ (k, v) ∈ l := by
  induction l with
  | nil => simp [firstVal]
  | cons e l ih =>
    obtain ⟨k', w⟩ := e
    unfold Sorted at hs
    rw [List.pairwise_cons] at hs
    obtain ⟨h1, h2⟩ := hs
    rw [firstVal, List.mem_cons, Prod.mk.injEq]
    split
    · next h =>
      subst h
      constructor
      · intro h; left; exact ⟨rfl, (Option.some.inj h).symm⟩
      · rintro (h | h)
        · rw [h.2]
        · exact absurd (h1 _ h) (by simp [cmpBytes_self])
    · next h =>
      rw [ih h2]
      constructor
      · exact Or.inr
      · rintro (h' | h')
        · exact absurd h'.1 h
        · exact h'

/-- The mathematical map a vector stands for. -/
abbrev absMap (m : SequenceMap V) : PMap V := firstVal m.sequences

theorem ne_of_lt_left {p : List (Bytes × V)} {k : Bytes} (h : ∀ e ∈ p, cmpBytes e.1 k = .lt) :
    ∀ e ∈ p, e.1 ≠ k := fun e he => cmpBytes_ne (h e he)

theorem ne_of_lt_right {p : List (Bytes × V)} {k : Bytes} (h : ∀ e ∈ p, cmpBytes k e.1 = .lt) :
    ∀ e ∈ p, e.1 ≠ k := fun e he => (cmpBytes_ne (h e he)).symm

theorem set_mid {α : Type} (p q : List α) (x y : α) : (p ++ x :: q).set p.length y = p ++ y :: q := by
  simp

theorem get_mid {α : Type} (p q : List α) (x : α) : (p ++ x :: q)[p.length]? = some x := by
  simp

theorem vecRemove_mid {α : Type} (p q : List α) (x : α) :
    SequenceMap.vecRemove (p ++ x :: q) p.length = some (p ++ q, x) := by
  unfold SequenceMap.vecRemove
  rw [get_mid]
  dsimp only
  rw [List.take_left, show p ++ x :: q = (p ++ [x]) ++ q by simp,
    show p.length + 1 = (p ++ [x]).length by simp, List.drop_left]

theorem vecInsert_mid {α : Type} (p q : List α) (x : α) :
    SequenceMap.vecInsert (p ++ q) p.length x = some (p ++ x :: q) := by
  unfold SequenceMap.vecInsert
  rw [if_pos (by simp), List.take_left, List.drop_left]

theorem upd_mid {p q : List (Bytes × V)} {k : Bytes} {v w : V}
    (hp : ∀ e ∈ p, e.1 ≠ k) :
    firstVal (p ++ (k, w) :: q) =
      PMap.upd (firstVal (p ++ (k, v) :: q)) k (some w) := by
  funext k'
  unfold PMap.upd
  rw [firstVal_mid w hp, firstVal_mid v hp]
  split <;> rfl

theorem upd_ins {p q : List (Bytes × V)} {k : Bytes} {w : V} (hp : ∀ e ∈ p, e.1 ≠ k) :
    firstVal (p ++ (k, w) :: q) = PMap.upd (firstVal (p ++ q)) k (some w) := by
  funext k'
  unfold PMap.upd
  rw [firstVal_mid w hp]

theorem upd_del {p q : List (Bytes × V)} {k : Bytes} {v : V} (hp : ∀ e ∈ p, e.1 ≠ k)
    (hq : ∀ e ∈ q, e.1 ≠ k) :
    firstVal (p ++ q) = PMap.upd (firstVal (p ++ (k, v) :: q)) k none := by
  funext k'
  unfold PMap.upd
  rw [firstVal_mid v hp]
  split
  · next h => subst h; rw [firstVal_append, firstVal_eq_none hp, firstVal_eq_none hq]; rfl
  · rfl

theorem upd_none_self {m : PMap V} {k : Bytes} (h : m k = none) : m.upd k none = m := by
  funext k'
  unfold PMap.upd
  split
  · next hk => rw [hk, h]
  · rfl

/-- One call: no panic, the vector stays sorted, and the effect and result are those of the
mathematical map. -/
theorem run_step (m : SequenceMap V) (h : Sorted m.sequences) (op : MapOp V) :
    ∃ m', op.run m = some (m', (op.spec (absMap m)).2) ∧ Sorted m'.sequences ∧
      absMap m' = (op.spec (absMap m)).1 := by
  have key : ∀ k : Bytes,
      (∃ p q v, m.sequences = p ++ (k, v) :: q ∧ m.search k = .found p.length ∧
        absMap m k = some v ∧ (∀ e ∈ p, cmpBytes e.1 k = .lt) ∧
        (∀ e ∈ q, cmpBytes k e.1 = .lt) ∧ Sorted (p ++ q)) ∨
      (∃ p q, m.sequences = p ++ q ∧ m.search k = .missing p.length ∧ absMap m k = none ∧
        (∀ e ∈ p, cmpBytes e.1 k = .lt) ∧ (∀ e ∈ q, cmpBytes k e.1 = .lt)) := by
    intro k
    rcases search_cases m h k with ⟨p, q, v, e, hs⟩ | ⟨p, q, e, hs, hp, hq⟩
    · left
      have hsp := sorted_split (e ▸ h)
      refine ⟨p, q, v, e, hs, ?_, hsp.1, hsp.2.1, hsp.2.2⟩
      show firstVal m.sequences k = _
      rw [e, firstVal_mid v (ne_of_lt_left hsp.1), if_pos rfl]
    · right
      refine ⟨p, q, e, hs, ?_, hp, hq⟩
      show firstVal m.sequences k = _
      rw [e, firstVal_append, firstVal_eq_none (ne_of_lt_left hp),
        firstVal_eq_none (ne_of_lt_right hq)]; rfl
  cases op with
  | insert k v =>
    simp only [MapOp.run, MapOp.spec, SequenceMap.insert, SequenceMap.insertAt]
    rcases key k with ⟨p, q, w, e, hs, hm, hp, hq, hpq⟩ | ⟨p, q, e, hs, hm, hp, hq⟩
    · rw [hs, hm, e]; dsimp only
      rw [get_mid, set_mid]
      refine ⟨_, rfl, sorted_insert v hpq hp hq, ?_⟩
      rw [absMap, absMap, e]
      exact upd_mid (ne_of_lt_left hp)
    · rw [hs, hm, e]; dsimp only
      rw [vecInsert_mid]
      refine ⟨_, rfl, sorted_insert v (e ▸ h) hp hq, ?_⟩
      rw [absMap, absMap, e]
      exact upd_ins (ne_of_lt_left hp)
  | remove k =>
    simp only [MapOp.run, MapOp.spec, SequenceMap.remove, SequenceMap.removeAt]
    rcases key k with ⟨p, q, w, e, hs, hm, hp, hq, hpq⟩ | ⟨p, q, e, hs, hm, hp, hq⟩
    · rw [hs, hm, e]; dsimp only
      rw [vecRemove_mid]
      refine ⟨_, rfl, hpq, ?_⟩
      rw [absMap, absMap, e]
      exact upd_del (ne_of_lt_left hp) (ne_of_lt_right hq)
    · rw [hs, hm]; dsimp only
      exact ⟨_, rfl, h, (upd_none_self hm).symm⟩
  | update k f =>
    simp only [MapOp.run, MapOp.spec, SequenceMap.getMut]
    rcases key k with ⟨p, q, w, e, hs, hm, hp, hq, hpq⟩ | ⟨p, q, e, hs, hm, hp, hq⟩
    · rw [hs, hm, e]; dsimp only
      rw [get_mid]
      dsimp only [Option.map_some]
      rw [set_mid]
      refine ⟨_, rfl, sorted_insert _ hpq hp hq, ?_⟩
      rw [absMap, absMap, e]
      exact upd_mid (ne_of_lt_left hp)
    · rw [hs, hm]; dsimp only
      exact ⟨_, rfl, h, (upd_none_self hm).symm⟩
  | entryInsert k v =>
    simp only [MapOp.run, MapOp.spec, SequenceMap.Entry.insert, SequenceMap.entry]
    rcases key k with ⟨p, q, w, e, hs, hm, hp, hq, hpq⟩ | ⟨p, q, e, hs, hm, hp, hq⟩
    · rw [hs, hm, e]; dsimp only
      rw [get_mid]
      dsimp only [Option.map_some]
      rw [set_mid]
      refine ⟨_, rfl, sorted_insert v hpq hp hq, ?_⟩
      rw [absMap, absMap, e]
      exact upd_mid (ne_of_lt_left hp)
    · rw [hs, hm, e]; dsimp only
      rw [vecInsert_mid]
      refine ⟨_, rfl, sorted_insert v (e ▸ h) hp hq, ?_⟩
      rw [absMap, absMap, e]
      exact upd_ins (ne_of_lt_left hp)
  | entryOrInsert k v g =>
    simp only [MapOp.run, MapOp.spec, SequenceMap.Entry.orInsert, SequenceMap.Entry.key,
      SequenceMap.entry]
    rcases key k with ⟨p, q, w, e, hs, hm, hp, hq, hpq⟩ | ⟨p, q, e, hs, hm, hp, hq⟩
    · rw [hs, hm, e]; dsimp only
      rw [get_mid]
      dsimp only [Option.map_some]
      rw [set_mid]
      refine ⟨_, rfl, sorted_insert _ hpq hp hq, ?_⟩
      rw [absMap, absMap, e]
      exact upd_mid (ne_of_lt_left hp)
    · rw [hs, hm, e]; dsimp only
      rw [vecInsert_mid]
      simp only [Option.bind_eq_bind, Option.bind_some, get_mid, set_mid]
      refine ⟨_, rfl, sorted_insert _ (e ▸ h) hp hq, ?_⟩
      rw [absMap, absMap, e]
      exact upd_ins (ne_of_lt_left hp)
  | entryModifyOrInsert k f v g =>
    simp only [MapOp.run, MapOp.spec, SequenceMap.Entry.orInsert, SequenceMap.Entry.key,
      SequenceMap.Entry.andModify, SequenceMap.entry]
    rcases key k with ⟨p, q, w, e, hs, hm, hp, hq, hpq⟩ | ⟨p, q, e, hs, hm, hp, hq⟩
    · rw [hs, hm, e]; dsimp only
      rw [get_mid]
      simp only [Option.map_some, Option.bind_eq_bind, Option.bind_some, set_mid, get_mid]
      refine ⟨_, rfl, sorted_insert _ hpq hp hq, ?_⟩
      rw [absMap, absMap, e]
      exact upd_mid (ne_of_lt_left hp)
    · rw [hs, hm]; dsimp only
      simp only [Option.bind_eq_bind, Option.bind_some, e, vecInsert_mid, get_mid, set_mid]
      refine ⟨_, rfl, sorted_insert _ (e ▸ h) hp hq, ?_⟩
      rw [absMap, absMap, e]
      exact upd_ins (ne_of_lt_left hp)
  | entryRemove k =>
    simp only [MapOp.run, MapOp.spec, SequenceMap.Entry.removeEntry, SequenceMap.entry]
    rcases key k with ⟨p, q, w, e, hs, hm, hp, hq, hpq⟩ | ⟨p, q, e, hs, hm, hp, hq⟩
    · rw [hs, hm, e]; dsimp only
      rw [vecRemove_mid]
      refine ⟨_, rfl, hpq, ?_⟩
      rw [absMap, absMap, e]
      exact upd_del (ne_of_lt_left hp) (ne_of_lt_right hq)
    · rw [hs, hm]; dsimp only
      exact ⟨_, rfl, h, (upd_none_self hm).symm⟩
  | entryLook k =>
    simp only [MapOp.run, MapOp.spec, SequenceMap.Entry.get, SequenceMap.Entry.key, SequenceMap.entry]
    rcases key k with ⟨p, q, w, e, hs, hm, hp, hq, hpq⟩ | ⟨p, q, e, hs, hm, hp, hq⟩
    · rw [hs, hm, e]; dsimp only
      rw [get_mid]
      exact ⟨_, rfl, h, rfl⟩
    · rw [hs, hm]; dsimp only
      exact ⟨_, rfl, h, rfl⟩
  | entryIntoKey k =>
    simp only [MapOp.run, MapOp.spec, SequenceMap.Entry.intoKey, SequenceMap.entry]
    rcases key k with ⟨p, q, w, e, hs, hm, hp, hq, hpq⟩ | ⟨p, q, e, hs, hm, hp, hq⟩
    · rw [hs, hm]; exact ⟨_, rfl, h, rfl⟩
    · rw [hs, hm]; exact ⟨_, rfl, h, rfl⟩
  | writeValues f =>
    refine ⟨_, rfl, List.pairwise_map.2 h, ?_⟩
    funext k
    show firstVal (m.sequences.map _) k = (firstVal m.sequences k).map (f k)
    induction m.sequences with
    | nil => rfl
    | cons e l ih =>
      simp only [List.map_cons, firstVal]
      by_cases hk : k = e.1
      · rw [if_pos hk, if_pos hk, hk]; rfl
      · rw [if_neg hk, if_neg hk, ih]

theorem run_history (ops : List (MapOp V)) (m : SequenceMap V) (h : Sorted m.sequences) :
    ∃ m', codeRun m ops = some (m', (specRun (absMap m) ops).2) ∧ Sorted m'.sequences ∧
      absMap m' = (specRun (absMap m) ops).1 := by
  induction ops generalizing m with
  | nil => exact ⟨m, rfl, h, rfl⟩
  | cons op ops ih =>
    obtain ⟨m1, h1, h2, h3⟩ := run_step m h op
    obtain ⟨m2, h4, h5, h6⟩ := ih m1 h2
    refine ⟨m2, ?_, h5, ?_⟩
    · simp only [codeRun, h1, Option.bind_eq_bind, Option.bind_some, h4, specRun, h3]
      rfl
    · rw [h6, h3]; rfl

theorem get_eq (m : SequenceMap V) (h : Sorted m.sequences) (k : Bytes) :
    m.get k = some (absMap m k) := by
  unfold SequenceMap.get SequenceMap.getAt
  rcases search_cases m h k with ⟨p, q, v, e, hs⟩ | ⟨p, q, e, hs, hp, hq⟩
  · have hsp := sorted_split (e ▸ h)
    rw [hs, absMap, e, firstVal_mid v (ne_of_lt_left hsp.1), if_pos rfl]
    dsimp only
    rw [get_mid]; rfl
  · rw [hs, absMap, e, firstVal_append, firstVal_eq_none (ne_of_lt_left hp),
      firstVal_eq_none (ne_of_lt_right hq)]; rfl

/-! ## Stable sort and dedup -/

/-- Increasing by key, equal keys allowed. -/
def WSorted (l : List (Bytes × V)) : Prop := l.Pairwise fun a b => cmpBytes a.1 b.1 ≠ .gt

theorem cmpBytes_le_trans {a b c : Bytes} (h1 : cmpBytes a b ≠ .gt) (h2 : cmpBytes b c ≠ .gt) :
    cmpBytes a c ≠ .gt := by
  cases e1 : cmpBytes a b with
  | gt => exact absurd e1 h1
  | eq => rw [cmpBytes_eq_iff] at e1; rw [e1]; exact h2
  | lt =>
    cases e2 : cmpBytes b c with
    | gt => exact absurd e2 h2
    | eq => rw [cmpBytes_eq_iff] at e2; rw [← e2, e1]; simp
    | lt => rw [cmpBytes_trans e1 e2]; simp

theorem insertSorted_spec (x : Bytes × V) (l : List (Bytes × V)) (h : WSorted l) :
    ∃ p q, l = p ++ q ∧ SequenceMap.insertSorted x l = p ++ x :: q ∧
      (∀ e ∈ p, cmpBytes e.1 x.1 ≠ .gt) ∧ (∀ e ∈ q, cmpBytes e.1 x.1 = .gt) := by
  induction l with
  | nil => exact ⟨[], [], rfl, rfl, by simp, by simp⟩
  | cons y l ih =>
    unfold WSorted at h
    rw [List.pairwise_cons] at h
    unfold SequenceMap.insertSorted
    split
    · next hg =>
      refine ⟨[], y :: l, rfl, rfl, by simp, ?_⟩
      intro e he
      rcases List.mem_cons.mp he with rfl | he
      · exact hg
      · cases hc : cmpBytes e.1 x.1 with
        | gt => rfl
        | lt => exact absurd hg (cmpBytes_le_trans (h.1 e he) (by rw [hc]; simp))
        | eq => exact absurd hg (cmpBytes_le_trans (h.1 e he) (by rw [hc]; simp))
    · next hg =>
      obtain ⟨p, q, e1, e2, hp, hq⟩ := ih h.2
      refine ⟨y :: p, q, by rw [e1]; rfl, by rw [e2]; rfl, ?_, hq⟩
      intro e he
      rcases List.mem_cons.mp he with rfl | he
      · exact hg
      · exact hp e he

theorem wsorted_insertSorted (x : Bytes × V) (l : List (Bytes × V)) (h : WSorted l) :
    WSorted (SequenceMap.insertSorted x l) ∧
    ∀ k, firstVal (SequenceMap.insertSorted x l) k = firstVal (l ++ [x]) k := by
  obtain ⟨p, q, e1, e2, hp, hq⟩ := insertSorted_spec x l h
  rw [e2]
  constructor
  · subst e1
    unfold WSorted at h ⊢
    rw [List.pairwise_append] at h ⊢
    refine ⟨h.1, List.pairwise_cons.mpr ⟨?_, h.2.1⟩, ?_⟩
    · intro e he
      have := hq e he
      rw [cmpBytes_gt_iff] at this
      rw [this]; simp
    · intro a ha b hb
      rcases List.mem_cons.mp hb with rfl | hb
      · exact hp a ha
      · exact h.2.2 a ha b hb
  · intro k
    subst e1
    obtain ⟨kx, vx⟩ := x
    rw [firstVal_append, firstVal_append, firstVal_append, firstVal, firstVal, firstVal]
    by_cases hk : k = kx
    · subst hk
      rw [if_pos rfl, if_pos rfl, firstVal_eq_none (p := q)]
      · simp
      · intro e he hke
        have := hq e he
        rw [hke, cmpBytes_self] at this
        cases this
    · rw [if_neg hk, if_neg hk, Option.or_none]

theorem stableSort_aux (l acc : List (Bytes × V)) (h : WSorted acc) :
    WSorted (l.foldl (fun acc x => SequenceMap.insertSorted x acc) acc) ∧
    ∀ k, firstVal (l.foldl (fun acc x => SequenceMap.insertSorted x acc) acc) k =
      firstVal (acc ++ l) k := by
  induction l generalizing acc with
  | nil => simpa using h
  | cons x l ih =>
    obtain ⟨h1, h2⟩ := wsorted_insertSorted x acc h
    obtain ⟨h3, h4⟩ := ih _ h1
    refine ⟨h3, fun k => ?_⟩
    rw [List.foldl_cons, h4, firstVal_append, h2, ← firstVal_append]
    simp

theorem dedup_go (b : Bytes × V) (l : List (Bytes × V)) (h : WSorted (b :: l)) :
    Sorted (b :: SequenceMap.dedupKeys.go b l) ∧
    ∀ k, firstVal (b :: SequenceMap.dedupKeys.go b l) k = firstVal (b :: l) k := by
  induction l generalizing b with
  | nil =>
    refine ⟨?_, fun k => rfl⟩
    unfold Sorted SequenceMap.dedupKeys.go
    exact List.pairwise_singleton _ _
  | cons a l ih =>
    unfold WSorted at h
    rw [List.pairwise_cons, List.pairwise_cons] at h
    unfold SequenceMap.dedupKeys.go
    split
    · next he =>
      rw [beq_iff_eq] at he
      have hb : WSorted (b :: l) :=
        List.pairwise_cons.mpr ⟨fun e h' => h.1 e (List.mem_cons_of_mem _ h'), h.2.2⟩
      obtain ⟨h1, h2⟩ := ih b hb
      refine ⟨h1, fun k => ?_⟩
      rw [h2]
      obtain ⟨kb, vb⟩ := b
      obtain ⟨ka, va⟩ := a
      simp only at he
      subst he
      simp only [firstVal]
      split <;> rfl
    · next he =>
      rw [beq_iff_eq] at he
      have ha : WSorted (a :: l) := List.pairwise_cons.mpr h.2
      obtain ⟨h1, h2⟩ := ih a ha
      have hba : cmpBytes b.1 a.1 = .lt := by
        cases hc : cmpBytes b.1 a.1 with
        | lt => rfl
        | eq => exact absurd ((cmpBytes_eq_iff _ _).mp hc).symm he
        | gt => exact absurd hc (h.1 a (List.mem_cons_self ..))
      refine ⟨?_, fun k => ?_⟩
      · refine List.pairwise_cons.mpr ⟨?_, h1⟩
        intro e he'
        rcases List.mem_cons.mp he' with rfl | he'
        · exact hba
        · exact cmpBytes_trans hba ((List.pairwise_cons.mp h1).1 e he')
      · obtain ⟨kb, vb⟩ := b
        simp only [firstVal]
        split
        · rfl
        · exact h2 k

theorem fromVec_spec (l : List (Bytes × V)) :
    Sorted (SequenceMap.fromVec l).sequences ∧ absMap (SequenceMap.fromVec l) = firstVal l := by
  have h := stableSort_aux l [] List.Pairwise.nil
  unfold SequenceMap.fromVec absMap
  dsimp only
  unfold SequenceMap.stableSort
  generalize l.foldl (fun acc x => SequenceMap.insertSorted x acc) [] = s at h
  obtain ⟨h1, h2⟩ := h
  cases s with
  | nil => exact ⟨List.Pairwise.nil, funext fun k => h2 k⟩
  | cons b s =>
    obtain ⟨h3, h4⟩ := dedup_go b s h1
    exact ⟨h3, funext fun k => by rw [← List.nil_append l, ← h2 k, ← h4 k]; rfl⟩

theorem fromIter_aux (l : List (Bytes × V)) (m : SequenceMap V) (h : Sorted m.sequences) :
    ∃ m', l.foldlM (fun (m : SequenceMap V) kv => (m.insert kv.1 kv.2).map (·.1)) m = some m' ∧
      Sorted m'.sequences ∧ ∀ k, absMap m' k = (lastVal l k).or (absMap m k) := by
  induction l generalizing m with
  | nil => exact ⟨m, rfl, h, fun k => rfl⟩
  | cons x l ih =>
    obtain ⟨m1, h1, h2, h3⟩ := run_step m h (.insert x.1 x.2)
    obtain ⟨m2, h4, h5, h6⟩ := ih m1 h2
    refine ⟨m2, ?_, h5, fun k => ?_⟩
    · simp only [MapOp.run, Option.map_eq_some_iff, Prod.exists, Prod.mk.injEq] at h1
      obtain ⟨a, b, h1, rfl, _⟩ := h1
      rw [List.foldlM_cons, h1]
      exact h4
    · rw [h6, h3]
      simp only [lastVal, List.reverse_cons, firstVal_append]
      obtain ⟨kx, vx⟩ := x
      simp only [MapOp.spec, PMap.upd, firstVal]
      cases firstVal l.reverse k with
      | some v => rfl
      | none =>
        simp only [Option.none_or]
        split <;> rfl

theorem init_spec (i : MapInit V) :
    ∃ m, i.run = some m ∧ Sorted m.sequences ∧ absMap m = i.spec := by
  cases i with
  | new => exact ⟨.new, rfl, List.Pairwise.nil, rfl⟩
  | fromVec l => exact ⟨_, rfl, (fromVec_spec l).1, (fromVec_spec l).2⟩
  | collect l =>
    obtain ⟨m, h1, h2, h3⟩ := fromIter_aux l .new List.Pairwise.nil
    refine ⟨m, h1, h2, funext fun k => ?_⟩
    rw [h3]
    show (lastVal l k).or none = _
    rw [Option.or_none]; rfl

/-! ## find -/

theorem find_spec (m : SequenceMap V) (h : Sorted m.sequences) (q : Bytes) :
    ∃ r, m.find q = some r ∧ FindSpec (absMap m) q r := by
  unfold SequenceMap.find SequenceMap.findAt
  have hmem : ∀ {k v}, absMap m k = some v ↔ (k, v) ∈ m.sequences := firstVal_some h
  rcases search_cases m h q with ⟨p, t, v, e, hs⟩ | ⟨p, t, e, hs, hp, ht⟩
  · obtain ⟨hp, ht, _⟩ := sorted_split (e ▸ h)
    have hst : Sorted t := by
      have := e ▸ h
      unfold Sorted at this
      rw [List.pairwise_append, List.pairwise_cons] at this
      exact this.2.1.2
    have hself : absMap m q = some v := by rw [hmem, e]; simp
    rw [hs, e]
    dsimp only
    rw [if_pos rfl, get_mid, show p ++ (q, v) :: t = (p ++ [(q, v)]) ++ t by simp,
      List.getElem?_append_right (by simp)]
    simp only [List.length_append, List.length_cons, List.length_nil, Nat.zero_add, Nat.sub_self]
    cases t with
    | nil =>
      refine ⟨_, rfl, hself, ?_⟩
      intro k w hk hpre
      rw [hmem, e] at hk
      rcases List.mem_append.mp hk with hk | hk
      · exact absurd (hp _ hk) (prefix_not_lt hpre)
      · simp at hk; exact hk.1
    | cons x t =>
      obtain ⟨kx, vx⟩ := x
      simp only [List.getElem?_cons_zero]
      cases hsw : startsWith kx q with
      | true =>
        rw [startsWith_iff] at hsw
        refine ⟨_, rfl, hself, kx, vx, ?_, hsw, ?_⟩
        · rw [hmem, e]; simp
        · exact (cmpBytes_ne (ht _ (List.mem_cons_self ..))).symm
      | false =>
        refine ⟨_, rfl, hself, ?_⟩
        intro k w hk hpre
        rw [hmem, e] at hk
        rcases List.mem_append.mp hk with hk | hk
        · exact absurd (hp _ hk) (prefix_not_lt hpre)
        · rcases List.mem_cons.mp hk with hk | hk
          · simp at hk; exact hk.1
          · exfalso
            have hx := ht _ (List.mem_cons_self ..)
            rcases List.mem_cons.mp hk with hk | hk
            · simp at hk; rw [hk.1, ← startsWith_iff, hsw] at hpre; cases hpre
            · have hlt := (List.pairwise_cons.mp hst).1 _ hk
              have := prefix_between hx hlt hpre
              rw [← startsWith_iff, hsw] at this; cases this
  · have hnone : absMap m q = none := by
      show firstVal m.sequences q = _
      rw [e, firstVal_append, firstVal_eq_none (ne_of_lt_left hp),
        firstVal_eq_none (ne_of_lt_right ht)]; rfl
    have hst : Sorted t := by
      have := e ▸ h
      unfold Sorted at this
      rw [List.pairwise_append] at this
      exact this.2.1
    rw [hs, e]
    dsimp only
    rw [if_neg (by simp), List.getElem?_append_right (by simp)]
    simp only [Nat.add_zero, Nat.sub_self]
    cases t with
    | nil =>
      refine ⟨_, rfl, ?_⟩
      intro k w hk hpre
      rw [hmem, e] at hk
      rcases List.mem_append.mp hk with hk | hk
      · exact absurd (hp _ hk) (prefix_not_lt hpre)
      · simp at hk
    | cons x t =>
      obtain ⟨kx, vx⟩ := x
      simp only [List.getElem?_cons_zero]
      cases hsw : startsWith kx q with
      | true =>
        rw [startsWith_iff] at hsw
        refine ⟨_, rfl, hnone, kx, vx, ?_, hsw⟩
        rw [hmem, e]; simp
      | false =>
        refine ⟨_, rfl, ?_⟩
        intro k w hk hpre
        rw [hmem, e] at hk
        rcases List.mem_append.mp hk with hk | hk
        · exact absurd (hp _ hk) (prefix_not_lt hpre)
        · have hx := ht _ (List.mem_cons_self ..)
          rcases List.mem_cons.mp hk with hk | hk
          · simp at hk; rw [hk.1, ← startsWith_iff, hsw] at hpre; cases hpre
          · have hlt := (List.pairwise_cons.mp hst).1 _ hk
            have := prefix_between hx hlt hpre
            rw [← startsWith_iff, hsw] at this; cases this

end Mortal
