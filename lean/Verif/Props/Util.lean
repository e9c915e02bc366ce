import Verif.Spec.Util
import Mathlib.Tactic.IntervalCases

/-! # C07, C08: `util.rs` helpers and `Key::from(char)` -/

namespace Mortal
open Spec

/-- **C07.** `is_ctrl` holds exactly for U+0000..U+001F. -/
theorem C07_isCtrl_iff (c : Char) : isCtrl c = true ↔ c.toNat < 32 := by
  unfold isCtrl CTRL_MASK
  rw [beq_iff_eq]
  have h : c.toNat &&& (0x1f#8).toNat = c.toNat % 32 := Nat.and_two_pow_sub_one_eq_mod c.toNat 5
  rw [h]
  constructor
  · intro h; rw [← h]; exact Nat.mod_lt _ (by decide)
  · intro h; exact Nat.mod_eq_of_lt h

theorem char_eq_ofNat (c : Char) (n : Nat) (h : c.toNat = n) : c = Char.ofNat n := by
  subst h; exact (Char.ofNat_toNat c).symm

/-- **C07.** `ctrl` undoes `unctrl_lower` and `unctrl_upper` on every control character. -/
theorem C07_ctrl_unctrl (c : Char) (h : isCtrl c = true) :
    ctrl (unctrlLower c) = c ∧ ctrl (unctrlUpper c) = c := by
  rw [C07_isCtrl_iff] at h
  obtain ⟨n, hn⟩ : ∃ n, c.toNat = n := ⟨_, rfl⟩
  rw [hn] at h
  have := char_eq_ofNat c n hn
  subst this
  clear hn
  interval_cases n <;> decide

/-- The hypothesis is met by every control character, e.g. Ctrl-C; the unctrl forms are letters. -/
example : isCtrl '\x03' = true ∧ unctrlLower '\x03' = 'c' ∧ unctrlUpper '\x03' = 'C' := by decide

/-- **C07.** The control character of the `n`-th letter is code `n`, for either case. -/
theorem C07_ctrl_letter (n : Nat) (h1 : 1 ≤ n) (h2 : n ≤ 26) :
    ctrl (Char.ofNat (96 + n)) = Char.ofNat n ∧ ctrl (Char.ofNat (64 + n)) = Char.ofNat n := by
  interval_cases n <;> decide

example : ctrl 'c' = '\x03' ∧ ctrl 'C' = '\x03' := by decide

/-- **C07.** `ctrl` of any character is a control character, the one with the lowest five bits of its
code: characters outside ASCII are not rejected, they share their control characters with others. -/
theorem C07_ctrl_any (c : Char) : (ctrl c).toNat = c.toNat % 32 ∧ isCtrl (ctrl c) = true := by
  have h : (ctrl c).toNat = c.toNat % 32 := by
    unfold ctrl u8AsChar Char.asU8 CTRL_MASK
    have e : (BitVec.ofNat 8 c.toNat &&& 0x1f#8).toNat = c.toNat % 32 := by
      rw [BitVec.toNat_and, BitVec.toNat_ofNat]
      refine (Nat.and_two_pow_sub_one_eq_mod (c.toNat % 2 ^ 8) 5).trans ?_
      omega
    rw [e]
    have : c.toNat % 32 < 32 := Nat.mod_lt _ (by decide)
    generalize c.toNat % 32 = n at this
    interval_cases n <;> decide
  exact ⟨h, (C07_isCtrl_iff _).2 (h ▸ Nat.mod_lt _ (by decide))⟩

example : ctrl 'š' = '\x01' ∧ ctrl 'a' = '\x01' := by decide

/-- **C07.** `unctrl_upper` of any character has the low eight bits of its code with bit 6 set: for control
characters a capital or one of `@[\]^_`; others are not rejected. `unctrl_lower` differs for capitals only. -/
theorem C07_unctrl_any (c : Char) :
    (unctrlUpper c).toNat = (if c.toNat % 128 < 64 then c.toNat % 256 + 64 else c.toNat % 256) ∧
    (unctrlLower c).toNat = (unctrlUpper c).toNat +
      if 65 ≤ (unctrlUpper c).toNat ∧ (unctrlUpper c).toNat ≤ 90 then 32 else 0 := by
  have key : ∀ b : BitVec 8, (u8AsChar (b ||| UNCTRL_BIT)).toNat = (if b.toNat % 128 < 64 then b.toNat + 64 else b.toNat) ∧
      (toAsciiLowercase (u8AsChar (b ||| UNCTRL_BIT))).toNat = (u8AsChar (b ||| UNCTRL_BIT)).toNat +
        if 65 ≤ (u8AsChar (b ||| UNCTRL_BIT)).toNat ∧ (u8AsChar (b ||| UNCTRL_BIT)).toNat ≤ 90 then 32 else 0 := by
    decide +kernel
  have h := key (Char.asU8 c)
  have e : (Char.asU8 c).toNat = c.toNat % 256 := by simp [Char.asU8]
  refine ⟨?_, h.2⟩
  have h1 := h.1
  rw [e, Nat.mod_mod_of_dvd _ (by decide)] at h1
  exact h1

example : unctrlUpper 'é' = 'é' ∧ unctrlLower '\x1b' = '[' ∧ unctrlUpper ' ' = '`' := by decide

/-- **C07.** `Key::from(char)` is the documented mapping. -/
theorem C07_key_of_char (c : Char) : KeyOf c (Key.ofChar c) := by
  unfold Key.ofChar
  split
  · next h => subst h; exact KeyOf.esc
  split
  · next h => subst h; exact KeyOf.del
  split
  · next h => rcases h with h | h <;> subst h <;> first | exact KeyOf.cr | exact KeyOf.lf
  split
  · next h => subst h; exact KeyOf.tab
  split
  · next h1 h2 h3 h4 h =>
    rw [C07_isCtrl_iff] at h
    obtain ⟨n, hn⟩ : ∃ n, c.toNat = n := ⟨_, rfl⟩
    have e : unctrlLower c = ctrlLetter c.toNat := by
      have h' := h
      have hc := char_eq_ofNat c n hn
      rw [hn] at h' ⊢
      subst hc
      clear hn h h1 h2 h3 h4
      interval_cases n <;> decide
    rw [e]
    refine KeyOf.ctrl c h ?_
    rw [hn]
    have hc := char_eq_ofNat c n hn
    subst hc
    simp only [List.mem_cons, List.not_mem_nil, or_false, not_or]
    refine ⟨?_, ?_, ?_, ?_⟩ <;> rintro rfl
    · exact h4 rfl
    · exact h3 (Or.inr rfl)
    · exact h3 (Or.inl rfl)
    · exact h1 rfl
  · next h1 h2 h3 h4 h =>
    rw [C07_isCtrl_iff] at h
    refine KeyOf.char c (by omega) ?_
    intro hc
    exact h2 (char_eq_ofNat c _ hc)

/-- **C07.** The documented mapping is a function: no character has two keys. -/
theorem C07_keyOf_unique (c : Char) (k k' : Key) (h : KeyOf c k) (h' : KeyOf c k') : k = k' := by
  cases h <;> cases h' <;> first
    | rfl
    | (exfalso; revert ‹_ ∉ _›; decide)
    | (exfalso; revert ‹32 ≤ _›; decide)
    | (exfalso; revert ‹_ ≠ 0x7f›; decide)
    | (exfalso; revert ‹_ < 32›; decide)
    | (exfalso; omega)

theorem ctrlLetter_inj {a b : Nat} (ha : a < 32) (hb : b < 32) (h : ctrlLetter a = ctrlLetter b) :
    a = b := by
  have : ∀ i j : Fin 32, ctrlLetter i.val = ctrlLetter j.val → i = j := by decide
  exact congrArg Fin.val (this ⟨a, ha⟩ ⟨b, hb⟩ h)

theorem keyOf_inj {a b : Char} {k k' : Key} (ha : KeyOf a k) (hb : KeyOf b k') (h : k = k') :
    a = b ∨ (k = .enter ∧ a ∈ ['\r', '\n'] ∧ b ∈ ['\r', '\n']) := by
  cases ha <;> cases hb <;> first
    | exact Or.inl rfl
    | exact Or.inr ⟨rfl, by decide, by decide⟩
    | (cases h; done)
    | skip
  · next h1 _ h2 _ =>
    left
    injection h with h
    have := ctrlLetter_inj h1 h2 h
    rw [char_eq_ofNat a _ rfl, this]; exact (char_eq_ofNat b _ rfl).symm
  · left; injection h

/-- **C07.** `Key::from` distinguishes all characters except carriage return and line feed. -/
theorem C07_key_injective (a b : Char) (h : Key.ofChar a = Key.ofChar b) :
    a = b ∨ (Key.ofChar a = .enter ∧ a ∈ ['\r', '\n'] ∧ b ∈ ['\r', '\n']) :=
  keyOf_inj (C07_key_of_char a) (C07_key_of_char b) h

/-- **C07.** `Key::from` never yields Ctrl of an upper-case letter. -/
theorem C07_no_upper_ctrl (c d : Char) (h : Key.ofChar c = .ctrl d) :
    ¬ (65 ≤ d.toNat ∧ d.toNat ≤ 90) := by
  have hc := C07_key_of_char c
  rw [h] at hc
  cases hc with
  | ctrl _ hlt _ =>
    have : ∀ i : Fin 32, ¬ (65 ≤ (ctrlLetter i.val).toNat ∧ (ctrlLetter i.val).toNat ≤ 90) := by
      decide
    exact this ⟨_, hlt⟩

example : Key.ofChar '\x03' = .ctrl 'c' ∧ Key.ofChar 'é' = .char 'é' ∧ Key.ofChar '\n' = .enter := by
  decide

theorem strLen_cons (c : Char) (s : List Char) : strLen (c :: s) = lenUtf8 c + strLen s := rfl

theorem lenUtf8_pos (c : Char) : 0 < lenUtf8 c := by unfold lenUtf8; split <;> (try split) <;> (try split) <;> omega

theorem strTake_append (s t : List Char) : strTake (strLen s) (s ++ t) = some s := by
  induction s with
  | nil => cases t <;> simp [strLen, strTake]
  | cons c s ih =>
    obtain ⟨k, hk⟩ : ∃ k, lenUtf8 c = k + 1 := ⟨lenUtf8 c - 1, by have := lenUtf8_pos c; omega⟩
    rw [strLen_cons, hk, show k + 1 + strLen s = (k + strLen s) + 1 by omega, List.cons_append,
      strTake, hk, if_pos (by omega), show k + strLen s + 1 - (k + 1) = strLen s by omega, ih]
    rfl

theorem prefixes_aux (p t : List Char) :
    (charIndices (strLen p) t).mapM (fun x => strTake (x.1 + lenUtf8 x.2) (p ++ t)) =
      some ((List.range t.length).map fun k => p ++ t.take (k + 1)) := by
  induction t generalizing p with
  | nil => simp [charIndices]
  | cons c t ih =>
    have h1 : strLen p + lenUtf8 c = strLen (p ++ [c]) := by
      simp [strLen]
    have h2 : p ++ c :: t = (p ++ [c]) ++ t := by simp
    rw [charIndices, List.mapM_cons, h1, h2, strTake_append, ih]
    simp [List.range_succ_eq_map, Function.comp_def]

/-- **C08.** `prefixes(s)` never panics and yields, in order, the prefixes of 1, 2, … all of the
characters of `s`. -/
theorem C08_prefixes (s : List Char) :
    prefixesP s = some ((List.range s.length).map fun k => s.take (k + 1)) := by
  have := prefixes_aux [] s
  simpa [prefixesP, strLen] using this

/-- **C08.** The yielded strings are exactly the non-empty prefixes; each is strictly longer than
the one before (so none is repeated), and the last is `s`. -/
theorem C08_prefixes_exact (s : List Char) (l : List (List Char)) (h : prefixesP s = some l) :
    (∀ p, p ∈ l ↔ NonemptyPrefix p s) ∧
    l.Pairwise (fun a b => a.length < b.length) ∧
    (s ≠ [] → l.getLast? = some s) ∧ (s = [] → l = []) := by
  rw [C08_prefixes] at h
  injection h with h
  subst h
  refine ⟨fun p => ?_, ?_, ?_, ?_⟩
  · simp only [List.mem_map, List.mem_range]
    constructor
    · rintro ⟨k, hk, rfl⟩
      refine ⟨?_, s.drop (k + 1), List.take_append_drop _ _⟩
      cases s with
      | nil => simp at hk
      | cons => simp
    · rintro ⟨hp, t, rfl⟩
      refine ⟨p.length - 1, ?_, ?_⟩
      · have := List.length_pos_iff.mpr hp
        simp; omega
      · have := List.length_pos_iff.mpr hp
        rw [show p.length - 1 + 1 = p.length by omega]; simp
  · rw [List.pairwise_map]
    refine List.Pairwise.imp_of_mem ?_ List.pairwise_lt_range
    intro a b ha hb hab
    simp at ha hb ⊢
    omega
  · intro hs
    obtain ⟨n, hn⟩ : ∃ n, s.length = n + 1 := ⟨s.length - 1, by
      have := List.length_pos_iff.mpr hs; omega⟩
    rw [hn, List.range_succ, List.map_append, List.map_cons, List.getLast?_append]
    simp [← hn]
  · rintro rfl; rfl

/-- A string with multi-byte characters. -/
example : prefixesP ['ñ', 'a', '中'] = some [['ñ'], ['ñ', 'a'], ['ñ', 'a', '中']] := C08_prefixes _

end Mortal
