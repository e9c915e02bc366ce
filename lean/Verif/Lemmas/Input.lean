import Verif.Lemmas.Utf8
import Verif.Lemmas.SequenceMap
import Verif.Props.SequenceMap
import Verif.Props.Util
import Verif.Spec.Input

/-! # Lemmas about input decoding -/

namespace Mortal
open Spec

/-! ## The table -/

/-- `find` on `m` answers according to `K`. -/
def Finds (m : SequenceMap SeqData) (K : PMap SeqData) : Prop :=
  ∀ q, ∃ r, m.find q = some r ∧ FindSpec K q r

theorem Spec.Table.finds {m : SequenceMap SeqData} {K : PMap SeqData} (h : Table m K) : Finds m K := by
  obtain ⟨i, ops, m₀, os, h1, h2, rfl⟩ := h.built
  exact fun q => C03_find_classifies i ops m₀ m os h1 h2 q

/-- `last` is the longest key among the first `j` prefixes of `s`. -/
def Best (K : PMap SeqData) (s : List Char) (j : Nat) : Option (Bytes × SeqData) → Prop
  | none => ∀ i, 0 < i → i ≤ j → K (encode (s.take i)) = none
  | some (k, v) => ∃ i, 0 < i ∧ i ≤ j ∧ k = encode (s.take i) ∧ K k = some v ∧
      ∀ i', i < i' → i' ≤ j → K (encode (s.take i')) = none

theorem best_extend {K : PMap SeqData} {s : List Char} {j l : Nat} {last}
    (h : Best K s j last) (hn : ∀ i, j < i → i ≤ l → K (encode (s.take i)) = none) (hl : j ≤ l) :
    Best K s l last := by
  match last with
  | none => exact fun i h0 hi => if hj : i ≤ j then h i h0 hj else hn i (by omega) hi
  | some (k, v) =>
    obtain ⟨i, h1, h2, h3, h4, h5⟩ := h
    exact ⟨i, h1, by omega, h3, h4, fun i' h6 h7 =>
      if hj : i' ≤ j then h5 i' h6 hj else hn i' (by omega) h7⟩

theorem encode_take_prefix (s : List Char) {i j : Nat} (h : i ≤ j) :
    encode (s.take i) <+: encode (s.take j) := by
  refine ⟨encode ((s.take j).drop i), ?_⟩
  rw [← encode_append]
  congr 1
  conv => rhs; rw [← List.take_append_drop i (s.take j)]
  rw [List.take_take, Nat.min_eq_left h]

theorem scan_best {m : SequenceMap SeqData} {K : PMap SeqData} (hm : Finds m K) (s : List Char) :
    ∀ (n j : Nat) (last), j + n = s.length → Best K s j last →
      ∃ last', scanPrefixes m ((List.range' j n).map fun k => s.take (k + 1)) last = some last' ∧
        Best K s s.length last' := by
  intro n
  induction n with
  | zero =>
    intro j last hj hb
    exact ⟨last, rfl, by rw [← hj]; exact hb⟩
  | succ n ih =>
    intro j last hj hb
    obtain ⟨r, hr, hf⟩ := hm (encode (s.take (j + 1)))
    rw [List.range'_succ, List.map_cons]
    unfold scanPrefixes
    rw [hr]
    cases r with
    | notFound =>
      refine ⟨last, rfl, best_extend hb (fun i h1 h2 => ?_) (by omega)⟩
      cases hk : K (encode (s.take i)) with
      | none => rfl
      | some v => exact absurd (encode_take_prefix s (by omega)) (hf _ v hk)
    | incomplete =>
      refine ih (j + 1) last (by omega) (best_extend hb (fun i h1 h2 => ?_) (by omega))
      obtain rfl : i = j + 1 := by omega
      exact hf.1
    | found v =>
      refine ⟨_, rfl, j + 1, by omega, by omega, rfl, hf.1, fun i h1 h2 => ?_⟩
      cases hk : K (encode (s.take i)) with
      | none => rfl
      | some w =>
        have := encode_inj (hf.2 _ w hk (encode_take_prefix s (by omega)))
        have := congrArg List.length this
        simp only [List.length_take] at this
        omega
    | undecided v =>
      exact ih (j + 1) _ (by omega) ⟨j + 1, by omega, by omega, rfl, hf.1, fun i h1 h2 => by omega⟩

theorem scan_text {m : SequenceMap SeqData} {K : PMap SeqData} (hm : Finds m K) (s : List Char) :
    ∃ pf last, prefixesP s = some pf ∧ scanPrefixes m pf none = some last ∧
      Best K s s.length last := by
  obtain ⟨last, h1, h2⟩ := scan_best hm s s.length 0 none (by omega) (fun i _ _ => by omega)
  refine ⟨_, last, C08_prefixes s, ?_, h2⟩
  rw [List.range_eq_range']
  exact h1

/-- A tail that does not start with a character. -/
def NoChar (t : Bytes) : Prop := t = [] ∨ decodeOne t = .incomplete ∨ decodeOne t = .invalid

theorem NoChar.decode {t : Bytes} (h : NoChar t) : (decodeAll t.length t).1 = [] := by
  match t with
  | [] => rfl
  | x :: xs =>
    unfold decodeAll
    rcases h with h | h | h
    · cases h
    · simp only [List.length_cons]; rw [h]
    · simp only [List.length_cons]; rw [h]

/-- Keys the input begins with are prefixes of its text. -/
theorem begins_take {K : PMap SeqData} (hu : ∀ k v, K k = some v → ∃ s, k = encode s)
    {s : List Char} {t k : Bytes} (ht : NoChar t) (hb : Begins K (encode s ++ t) k) :
    ∃ i, 0 < i ∧ i ≤ s.length ∧ k = encode (s.take i) := by
  obtain ⟨h1, h2, h3⟩ := hb
  obtain ⟨v, hv⟩ := Option.ne_none_iff_exists'.mp h1
  obtain ⟨q, rfl⟩ := hu k v hv
  have hp := encode_prefix h3 ht.decode
  refine ⟨q.length, ?_, hp.length_le, ?_⟩
  · apply List.length_pos_iff.mpr
    rintro rfl
    exact h2 rfl
  · rw [← List.prefix_iff_eq_take.mp hp]

theorem begins_of_take {K : PMap SeqData} {s : List Char} {t : Bytes} {i : Nat} (h0 : 0 < i)
    (hs : s ≠ []) (hk : K (encode (s.take i)) ≠ none) :
    Begins K (encode s ++ t) (encode (s.take i)) := by
  refine ⟨hk, ?_, ?_⟩
  · intro h
    have := congrArg List.length (encode_eq_nil.mp h)
    rw [List.length_take] at this
    have := List.length_pos_iff.mpr hs
    simp only [List.length_nil] at *
    omega
  · refine ⟨encode (s.drop i) ++ t, ?_⟩
    rw [← List.append_assoc, ← encode_append, List.take_append_drop]

theorem encode_take_length_lt (s : List Char) {i j : Nat} (h : i < j) (hj : j ≤ s.length) :
    (encode (s.take i)).length < (encode (s.take j)).length := by
  have hp := encode_take_prefix s (Nat.le_of_lt h)
  rcases Nat.lt_or_ge (encode (s.take i)).length (encode (s.take j)).length with h1 | h1
  · exact h1
  · have := encode_inj (hp.eq_of_length (Nat.le_antisymm hp.length_le h1))
    have := congrArg List.length this
    simp only [List.length_take] at this
    omega

theorem best_longest {K : PMap SeqData} (hu : ∀ k v, K k = some v → ∃ s, k = encode s)
    {s : List Char} {t : Bytes} (ht : NoChar t) {k : Bytes} {v : SeqData}
    (h : Best K s s.length (some (k, v))) : Longest K (encode s ++ t) k ∧ K k = some v := by
  obtain ⟨i, h1, h2, rfl, h4, h5⟩ := h
  have hs : s ≠ [] := by rintro rfl; simp at h2; omega
  refine ⟨⟨begins_of_take h1 hs (by rw [h4]; simp), fun k' hk' => ?_⟩, h4⟩
  obtain ⟨i', h6, h7, rfl⟩ := begins_take hu ht hk'
  by_cases hi : i < i'
  · exact absurd (h5 i' hi h7) hk'.1
  · exact (encode_take_prefix s (by omega)).length_le

theorem longest_unique {K : PMap SeqData} {buf k k' : Bytes} (h : Longest K buf k)
    (h' : Longest K buf k') : k = k' := by
  have h1 := h.2 _ h'.1
  have h2 := h'.2 _ h.1
  exact (List.prefix_of_prefix_length_le h.1.2.2 h'.1.2.2 h2).eq_of_length (by omega)

/-- What `peek_event` does with a text that is followed by no further character. -/
theorem peek_text {m : SequenceMap SeqData} {K : PMap SeqData} (hm : Table m K)
    {ch : Char} {s : List Char} {t : Bytes} (ht : NoChar t)
    (hp : utf8Prefix (encode (ch :: s) ++ t) = some (ch :: s)) :
    ((∀ k, ¬ Begins K (encode (ch :: s) ++ t) k) ∧
      peekEvent m (encode (ch :: s) ++ t) =
        some (.event (.key (Key.ofChar ch)) (lenUtf8 ch))) ∨
    (∃ k kk, Longest K (encode (ch :: s) ++ t) k ∧ K k = some (.key kk) ∧
      peekEvent m (encode (ch :: s) ++ t) = some (.event (.key kk) k.length)) ∨
    (∃ k, Longest K (encode (ch :: s) ++ t) k ∧ K k = some .xtermMouse ∧
      peekEvent m (encode (ch :: s) ++ t) =
        match parseMouseData ((encode (ch :: s) ++ t).drop k.length) with
        | none => none
        | some none => some (.event (.key (Key.ofChar ch)) (lenUtf8 ch))
        | some (some (ev, n)) => some (.event (.mouse ev) (k.length + n))) := by
  obtain ⟨pf, last, h1, h2, h3⟩ := scan_text hm.finds (ch :: s)
  rcases last with _ | ⟨k, kk | _⟩
  · left
    refine ⟨fun k hk => ?_, ?_⟩
    · obtain ⟨i, h4, h5, rfl⟩ := begins_take hm.utf8 ht hk
      exact hk.1 (h3 i h4 h5)
    · simp [peekEvent, hp, h1, h2]
  · right; left
    have := best_longest hm.utf8 ht h3
    refine ⟨k, kk, this.1, this.2, ?_⟩
    simp [peekEvent, hp, h1, h2]
  · right; right
    have := best_longest hm.utf8 ht h3
    refine ⟨k, this.1, this.2, ?_⟩
    simp only [peekEvent, hp, h1, h2, Option.bind_eq_bind, Option.bind_some]
    cases parseMouseData ((encode (ch :: s) ++ t).drop k.length) with
    | none => rfl
    | some o => cases o <;> rfl

/-! ## Well-formed, unfinished and ill-formed input -/

theorem noChar_of_unfinished {b : Bytes} (h : Unfinished b) : decodeOne b = .incomplete := by
  obtain ⟨_, c, t, h1, h2⟩ := h
  exact decodeOne_prefix h2 h1

theorem unfinished_iff {b : Bytes} : Unfinished b ↔ b ≠ [] ∧ decodeOne b = .incomplete :=
  ⟨fun h => ⟨h.1, noChar_of_unfinished h⟩, fun h => ⟨h.1, decodeOne_incomplete h.2⟩⟩

theorem illFormed_iff {b : Bytes} : IllFormed b ↔ b ≠ [] ∧ decodeOne b = .invalid := by
  constructor
  · rintro ⟨h0, h⟩
    refine ⟨h0, ?_⟩
    cases hd : decodeOne b with
    | invalid => rfl
    | char c n =>
      obtain ⟨t, ht, _⟩ := decodeOne_char hd
      exact absurd (by rw [List.append_nil, ht]) (h c [] t)
    | incomplete =>
      obtain ⟨c, t, _, h2⟩ := decodeOne_incomplete hd
      exact absurd (by rw [List.append_nil, h2]) (h c t [])
  · rintro ⟨h0, h⟩
    refine ⟨h0, fun c t u he => ?_⟩
    have h1 := decodeOne_invalid_append h t
    rw [← he, decodeOne_encode] at h1
    cases h1

theorem startsWith_iff' {b : Bytes} {c : Char} :
    StartsWith b c ↔ decodeOne b = .char c (String.utf8EncodeChar c).length := by
  constructor
  · rintro ⟨t, rfl⟩
    exact decodeOne_encode c t
  · intro h
    obtain ⟨t, ht, _⟩ := decodeOne_char h
    exact ⟨t, ht.symm⟩

theorem input_cases {b : Bytes} (h : b ≠ []) :
    (∃ c, StartsWith b c) ∨ Unfinished b ∨ IllFormed b := by
  cases hd : decodeOne b with
  | char c n =>
    obtain ⟨t, ht, _⟩ := decodeOne_char hd
    exact Or.inl ⟨c, t, ht.symm⟩
  | incomplete => exact Or.inr (Or.inl (unfinished_iff.mpr ⟨h, hd⟩))
  | invalid => exact Or.inr (Or.inr (illFormed_iff.mpr ⟨h, hd⟩))

theorem utf8Prefix_illFormed {b : Bytes} (h : IllFormed b) : utf8Prefix b = none := by
  obtain ⟨h0, h1⟩ := illFormed_iff.mp h
  rcases utf8Prefix_spec b with ⟨s, t, hb, hs, _⟩ | ⟨_, _, hn⟩
  · match s with
    | [] =>
      unfold utf8Prefix
      match b with
      | x :: xs =>
        simp only [List.length_cons]
        unfold decodeAll
        rw [h1]
        simp
    | c :: cs =>
      rw [hb, encode_cons, List.append_assoc, decodeOne_encode] at h1
      cases h1
  · exact hn

theorem utf8Prefix_unfinished {b : Bytes} (h : Unfinished b) : utf8Prefix b = some [] := by
  obtain ⟨h0, h1⟩ := unfinished_iff.mp h
  unfold utf8Prefix
  match b with
  | x :: xs =>
    simp only [List.length_cons]
    unfold decodeAll
    rw [h1]
    simp

/-- Input that begins with a character: its text, and the rest. -/
theorem utf8Prefix_startsWith {b : Bytes} {c : Char} (h : StartsWith b c) :
    ∃ s t, b = encode (c :: s) ++ t ∧ NoChar t ∧ utf8Prefix b = some (c :: s) := by
  have hd := startsWith_iff'.mp h
  rcases utf8Prefix_spec b with ⟨s, t, hb, hs, ht⟩ | ⟨_, hi, _⟩
  · have hnc : NoChar t := by
      rcases ht with h1 | h1 | h1
      · exact Or.inl h1
      · exact Or.inr (Or.inl h1.2)
      · exact Or.inr (Or.inr h1.2.2)
    match s with
    | [] =>
      simp only [encode_nil, List.nil_append] at hb
      subst hb
      rcases hnc with h1 | h1 | h1
      · subst h1; cases hd
      · rw [h1] at hd; cases hd
      · rw [h1] at hd; cases hd
    | d :: s =>
      have : d = c := by
        rw [hb, encode_cons, List.append_assoc, decodeOne_encode] at hd
        injection hd
      subst this
      exact ⟨s, t, hb, hnc, hs⟩
  · rw [hi] at hd; cases hd

/-! ## Numbers and mouse reports -/

theorem digit_toNat {d : Nat} (h : d < 10) : (UInt8.ofNat (48 + d)).toNat = 48 + d := by
  rw [UInt8.toNat_ofNat']
  omega

/-- The number the digits denote when put behind those of `a`. -/
def numeralFrom (a : Nat) (ds : Bytes) : Nat := ds.foldl (fun a d => 10 * a + (d.toNat - 48)) a

theorem numeralFrom_ge (ds : Bytes) : ∀ a, a ≤ numeralFrom a ds := by
  induction ds with
  | nil => exact fun a => Nat.le_refl a
  | cons d ds ih =>
    intro a
    have := ih (10 * a + (d.toNat - 48))
    simp only [numeralFrom, List.foldl_cons] at this ⊢
    omega

theorem parseInteger_digits (ds : Bytes) : ∀ (a : Nat) (e : UInt8) (r : Bytes), Digits ds →
    ¬ (48 ≤ e.toNat ∧ e.toNat ≤ 57) → numeralFrom a ds ≤ u32Max →
    parseInteger a (ds ++ e :: r) = some (numeralFrom a ds, e, r) := by
  induction ds with
  | nil =>
    intro a e r _ he _
    rw [List.nil_append, parseInteger, if_neg he]
    rfl
  | cons d ds ih =>
    intro a e r hd he hn
    have h1 := hd d (by simp)
    have h2 : numeralFrom a (d :: ds) = numeralFrom (10 * a + (d.toNat - 48)) ds := rfl
    have h3 := numeralFrom_ge ds (10 * a + (d.toNat - 48))
    rw [List.cons_append, parseInteger, if_pos h1, if_pos (by omega), if_pos (by omega),
      show a * 10 + (d.toNat - 48) = 10 * a + (d.toNat - 48) by omega, h2]
    exact ih _ e r (fun x hx => hd x (by simp [hx])) he (by omega)

theorem parseInteger_some (b : Bytes) : ∀ (a n : Nat) (e : UInt8) (r : Bytes), a ≤ u32Max →
    parseInteger a b = some (n, e, r) →
    ∃ ds, b = ds ++ e :: r ∧ Digits ds ∧ ¬ (48 ≤ e.toNat ∧ e.toNat ≤ 57) ∧
      numeralFrom a ds = n ∧ n ≤ u32Max := by
  induction b with
  | nil => intro a n e r _ h; cases h
  | cons x bs ih =>
    intro a n e r ha h
    rw [parseInteger] at h
    by_cases h1 : 48 ≤ x.toNat ∧ x.toNat ≤ 57
    · rw [if_pos h1] at h
      by_cases h2 : a * 10 ≤ u32Max
      · rw [if_pos h2] at h
        by_cases h3 : a * 10 + (x.toNat - 48) ≤ u32Max
        · rw [if_pos h3] at h
          obtain ⟨ds, g1, g2, g3, g4, g5⟩ := ih _ n e r h3 h
          refine ⟨x :: ds, by rw [g1]; rfl, ?_, g3, ?_, g5⟩
          · intro d hd
            rcases List.mem_cons.mp hd with rfl | hd
            · exact h1
            · exact g2 d hd
          · rw [← g4]
            simp only [numeralFrom, List.foldl_cons]
            rw [show 10 * a + (x.toNat - 48) = a * 10 + (x.toNat - 48) by omega]
        · rw [if_neg h3] at h; cases h
      · rw [if_neg h2] at h; cases h
    · rw [if_neg h1] at h
      cases h
      exact ⟨[], rfl, by simp [Digits], h1, rfl, ha⟩

theorem decimal_digits (n : Nat) : Digits (decimal n) ∧ numeral (decimal n) = n := by
  induction n using Nat.strongRecOn with
  | ind n ih =>
    by_cases hn : n < 10
    · rw [decimal, if_pos hn]
      refine ⟨fun d hd => ?_, ?_⟩
      · rw [List.mem_singleton] at hd
        subst hd
        rw [digit_toNat hn]
        omega
      · simp only [numeral, List.foldl_cons, List.foldl_nil]
        rw [digit_toNat hn]
        omega
    · obtain ⟨h1, h2⟩ := ih (n / 10) (by omega)
      have hd10 : n % 10 < 10 := Nat.mod_lt _ (by omega)
      rw [decimal, if_neg hn]
      refine ⟨fun d hd => ?_, ?_⟩
      · rcases List.mem_append.mp hd with hd | hd
        · exact h1 d hd
        · rw [List.mem_singleton] at hd
          subst hd
          rw [digit_toNat hd10]
          omega
      · simp only [numeral] at h2 ⊢
        rw [List.foldl_append, h2]
        simp only [List.foldl_cons, List.foldl_nil]
        rw [digit_toNat hd10]
        omega

/-- The parser on three digit strings with the right separators. -/
theorem parseMouse_fields {d1 d2 d3 r : Bytes} {e : UInt8} (h1 : Digits d1) (h2 : Digits d2)
    (h3 : Digits d3) (n1 : numeral d1 ≤ u32Max) (n2 : numeral d2 ≤ u32Max)
    (n3 : numeral d3 ≤ u32Max) (he : e.toNat = 77 ∨ e.toNat = 109) :
    parseMouseData (d1 ++ [59] ++ d2 ++ [59] ++ d3 ++ [e] ++ r) = (do
      let l ← usub (numeral d3) 1
      let c ← usub (numeral d2) 1
      pure (some (⟨⟨l, c⟩, (mouseInput (numeral d1) (e.toNat = 77)).1,
        (mouseInput (numeral d1) (e.toNat = 77)).2⟩,
        (d1 ++ [59] ++ d2 ++ [59] ++ d3 ++ [e]).length))) := by
  have e1 : d1 ++ [59] ++ d2 ++ [59] ++ d3 ++ [e] ++ r
      = d1 ++ 59 :: (d2 ++ 59 :: (d3 ++ e :: r)) := by simp
  unfold parseMouseData
  rw [e1, parseInteger_digits d1 0 59 _ h1 (by decide) n1]
  dsimp only
  rw [if_neg (by decide), parseInteger_digits d2 0 59 _ h2 (by decide) n2]
  dsimp only
  rw [if_neg (by decide), parseInteger_digits d3 0 e _ h3 (by omega) n3]
  dsimp only
  rw [if_neg (by omega)]
  simp only [numeralFrom, numeral]
  have e2 : (d1 ++ 59 :: (d2 ++ 59 :: (d3 ++ e :: r))).length - r.length
      = (d1 ++ [59] ++ d2 ++ [59] ++ d3 ++ [e]).length := by
    simp only [List.length_append, List.length_cons, List.length_nil]; omega
  rw [e2]

/-- Whatever the parser accepts or panics on has that shape. -/
theorem parseMouse_shape {b : Bytes} (h : parseMouseData b ≠ some none) :
    ∃ d1 d2 d3 r e, b = d1 ++ [59] ++ d2 ++ [59] ++ d3 ++ [e] ++ r ∧ Digits d1 ∧ Digits d2 ∧
      Digits d3 ∧ numeral d1 ≤ u32Max ∧ numeral d2 ≤ u32Max ∧ numeral d3 ≤ u32Max ∧
      (e.toNat = 77 ∨ e.toNat = 109) := by
  unfold parseMouseData at h
  cases h1 : parseInteger 0 b with
  | none => rw [h1] at h; exact absurd rfl h
  | some x1 =>
  obtain ⟨a1, e1, r1⟩ := x1
  rw [h1] at h
  dsimp only at h
  by_cases he1 : e1.toNat ≠ 59
  · rw [if_pos he1] at h; exact absurd rfl h
  rw [if_neg he1] at h
  cases h2 : parseInteger 0 r1 with
  | none => rw [h2] at h; exact absurd rfl h
  | some x2 =>
  obtain ⟨a2, e2, r2⟩ := x2
  rw [h2] at h
  dsimp only at h
  by_cases he2 : e2.toNat ≠ 59
  · rw [if_pos he2] at h; exact absurd rfl h
  rw [if_neg he2] at h
  cases h3 : parseInteger 0 r2 with
  | none => rw [h3] at h; exact absurd rfl h
  | some x3 =>
  obtain ⟨a3, e3, r3⟩ := x3
  rw [h3] at h
  dsimp only at h
  by_cases he3 : e3.toNat ≠ 77 ∧ e3.toNat ≠ 109
  · rw [if_pos he3] at h; exact absurd rfl h
  obtain ⟨d1, g1, g2, g3, g4, g5⟩ := parseInteger_some b 0 _ _ _ (by decide) h1
  obtain ⟨d2, k1, k2, k3, k4, k5⟩ := parseInteger_some r1 0 _ _ _ (by decide) h2
  obtain ⟨d3, l1, l2, l3, l4, l5⟩ := parseInteger_some r2 0 _ _ _ (by decide) h3
  have q1 : e1 = 59 := UInt8.toNat_inj.mp (by simpa using he1)
  have q2 : e2 = 59 := UInt8.toNat_inj.mp (by simpa using he2)
  refine ⟨d1, d2, d3, r3, e3, ?_, g2, k2, l2, ?_, ?_, ?_, by omega⟩
  · rw [g1, k1, l1, q1, q2]; simp
  · rw [← g4] at g5; exact g5
  · rw [← k4] at k5; exact k5
  · rw [← l4] at l5; exact l5

theorem mouseInput_eq {code : Nat} (h : code ≤ u32Max) (press : Bool) :
    mouseInput code press = (sgrInput (sgrBase code) press, sgrMods code) := by
  have hc : code < 2 ^ 32 := by unfold u32Max at h; omega
  have hbit : ∀ i, i < 32 → ((BitVec.ofNat 32 code &&& BitVec.twoPow 32 i) != 0#32)
      = (code / 2 ^ i % 2 == 1) := by
    intro i hi
    have : (BitVec.ofNat 32 code &&& BitVec.twoPow 32 i)
        = if code.testBit i then BitVec.twoPow 32 i else 0#32 := by
      rw [BitVec.and_twoPow, BitVec.getLsbD_ofNat]
      simp [hi]
    rw [this, Nat.testBit_eq_decide_div_mod_eq]
    by_cases hb : code / 2 ^ i % 2 = 1
    · have hne : BitVec.twoPow 32 i ≠ 0#32 := by
        intro he
        have := congrArg BitVec.toNat he
        rw [BitVec.toNat_twoPow_of_lt hi] at this
        have := Nat.two_pow_pos i
        simp at *
      simp [hb, hne]
    · simp [hb]
  have hmask : (BitVec.ofNat 32 code &&& ~~~(0x04#32 ||| 0x08#32 ||| 0x10#32)).toNat
      = sgrBase code := by
    rw [show ~~~(0x04#32 ||| 0x08#32 ||| 0x10#32) = BitVec.ofNat 32 (2 ^ 5 * (2 ^ 27 - 1) + 3) by
      decide, BitVec.toNat_and, BitVec.toNat_ofNat, BitVec.toNat_ofNat, Nat.mod_eq_of_lt hc,
      Nat.mod_eq_of_lt (by decide)]
    unfold sgrBase
    rw [show code % 4 + 32 * (code / 32) = 2 ^ 5 * (code / 32) + code % 4 by omega]
    apply Nat.eq_of_testBit_eq
    intro i
    rw [Nat.testBit_and, Nat.testBit_two_pow_mul_add _ (by decide),
      Nat.testBit_two_pow_mul_add _ (by omega)]
    by_cases hi : i < 5
    · rw [if_pos hi, if_pos hi, show (3 : Nat) = 2 ^ 2 - 1 by decide,
        Nat.testBit_two_pow_sub_one, show code % 4 = code % 2 ^ 2 by decide_cbv,
        Nat.testBit_mod_two_pow, Bool.and_comm]
    · rw [if_neg hi, if_neg hi, Nat.testBit_two_pow_sub_one, show (32 : Nat) = 2 ^ 5 by decide,
        Nat.testBit_div_two_pow, show i - 5 + 5 = i by omega]
      by_cases h2 : i - 5 < 27
      · simp [h2]
      · have : code.testBit i = false :=
          Nat.testBit_lt_two_pow (Nat.lt_of_lt_of_le hc (Nat.pow_le_pow_right (by omega) (by omega)))
        simp [this]
  unfold mouseInput
  dsimp only
  rw [hmask]
  have b2 := hbit 2 (by omega)
  have b3 := hbit 3 (by omega)
  have b4 := hbit 4 (by omega)
  rw [show BitVec.twoPow 32 2 = 0x04#32 by decide] at b2
  rw [show BitVec.twoPow 32 3 = 0x08#32 by decide] at b3
  rw [show BitVec.twoPow 32 4 = 0x10#32 by decide] at b4
  rw [b2, b3, b4]
  refine Prod.ext ?_ rfl
  dsimp only
  generalize sgrBase code = v
  unfold sgrInput mouseButtonEvent
  dsimp only
  by_cases h0 : v = 0
  · subst h0; cases press <;> rfl
  by_cases h1 : v = 1
  · subst h1; cases press <;> rfl
  by_cases h2 : v = 2
  · subst h2; cases press <;> rfl
  by_cases h3 : v = 3
  · subst h3; cases press <;> rfl
  rw [if_neg (by omega), if_neg h0, if_neg h1, if_neg h2, if_neg h3]

end Mortal
