import Verif.Model.Utf8

namespace Mortal

theorem char_valid (c : Char) : c.toNat < 0xD800 ∨ (0xDFFF < c.toNat ∧ c.toNat < 0x110000) := by
  exact c.valid

theorem toNat_ofNat {n : Nat} (h : n < 0xD800 ∨ (0xDFFF < n ∧ n < 0x110000)) :
    (Char.ofNat n).toNat = n := by
  have hv : n.isValidChar := h
  simp [Char.ofNat, hv, Char.ofNatAux, Char.toNat]

theorem char_ext {c d : Char} (h : c.toNat = d.toNat) : c = d := by
  apply Char.ext
  apply UInt32.toNat_inj.mp
  exact h

theorem ofNat_eq {n : Nat} {c : Char} (h : n = c.toNat) : Char.ofNat n = c := by
  apply char_ext
  rw [h]
  exact toNat_ofNat (char_valid c)

theorem u8_toNat {n : Nat} (h : n < 256) : (UInt8.ofNat n).toNat = n := by
  simp; omega

theorem u8_ext {a b : UInt8} (h : a.toNat = b.toNat) : a = b := UInt8.toNat_inj.mp h

theorem u8_ofNat_eq {n : Nat} {a : UInt8} (h : n = a.toNat) : UInt8.ofNat n = a := by
  rw [h]; simp

theorem enc1 {c : Char} (h : c.toNat ≤ 127) :
    String.utf8EncodeChar c = [UInt8.ofNat c.toNat] := by
  unfold String.utf8EncodeChar; exact if_pos h
theorem enc2 {c : Char} (h1 : ¬ c.toNat ≤ 127) (h2 : c.toNat ≤ 2047) :
    String.utf8EncodeChar c =
      [UInt8.ofNat (c.toNat / 64 % 32 + 192), UInt8.ofNat (c.toNat % 64 + 128)] := by
  unfold String.utf8EncodeChar; exact (if_neg h1).trans (if_pos h2)
theorem enc3 {c : Char} (h1 : ¬ c.toNat ≤ 127) (h2 : ¬ c.toNat ≤ 2047) (h3 : c.toNat ≤ 65535) :
    String.utf8EncodeChar c =
      [UInt8.ofNat (c.toNat / 4096 % 16 + 224), UInt8.ofNat (c.toNat / 64 % 64 + 128),
        UInt8.ofNat (c.toNat % 64 + 128)] := by
  unfold String.utf8EncodeChar
  exact (if_neg h1).trans ((if_neg h2).trans (if_pos h3))
theorem enc4 {c : Char} (h1 : ¬ c.toNat ≤ 127) (h2 : ¬ c.toNat ≤ 2047) (h3 : ¬ c.toNat ≤ 65535) :
    String.utf8EncodeChar c =
      [UInt8.ofNat (c.toNat / 262144 % 8 + 240), UInt8.ofNat (c.toNat / 4096 % 64 + 128),
        UInt8.ofNat (c.toNat / 64 % 64 + 128), UInt8.ofNat (c.toNat % 64 + 128)] := by
  unfold String.utf8EncodeChar
  exact (if_neg h1).trans ((if_neg h2).trans (if_neg h3))

theorem encodeChar_length (c : Char) : (String.utf8EncodeChar c).length = lenUtf8 c := by
  unfold lenUtf8
  by_cases h1 : c.toNat ≤ 127
  · rw [enc1 h1, if_pos (by omega)]; rfl
  · by_cases h2 : c.toNat ≤ 2047
    · rw [enc2 h1 h2, if_neg (by omega), if_pos (by omega)]; rfl
    · by_cases h3 : c.toNat ≤ 65535
      · rw [enc3 h1 h2 h3, if_neg (by omega), if_neg (by omega), if_pos (by omega)]; rfl
      · rw [enc4 h1 h2 h3, if_neg (by omega), if_neg (by omega), if_neg (by omega)]; rfl

theorem encodeChar_ne_nil (c : Char) : String.utf8EncodeChar c ≠ [] := by
  intro h
  have := encodeChar_length c
  rw [h] at this
  unfold lenUtf8 at this
  simp only [List.length_nil] at this
  repeat' split at this
  all_goals omega

/-- Decoding undoes encoding, whatever follows. -/
theorem decodeOne_encode (c : Char) (t : Bytes) :
    decodeOne (String.utf8EncodeChar c ++ t) = .char c (String.utf8EncodeChar c).length := by
  have hv := char_valid c
  by_cases h1 : c.toNat ≤ 127
  · rw [enc1 h1]
    simp only [List.cons_append, List.nil_append, decodeOne, u8_toNat (show c.toNat < 256 by omega)]
    rw [if_pos (by omega), ofNat_eq rfl]
    rfl
  · by_cases h2 : c.toNat ≤ 2047
    · rw [enc2 h1 h2]
      simp only [List.cons_append, List.nil_append, decodeOne, isCont,
        u8_toNat (show c.toNat / 64 % 32 + 192 < 256 by omega),
        u8_toNat (show c.toNat % 64 + 128 < 256 by omega)]
      rw [if_neg (by omega), if_neg (by omega), if_pos (by omega), if_pos (by simp; omega),
        ofNat_eq (c := c) (by omega)]
      rfl
    · by_cases h3 : c.toNat ≤ 65535
      · rw [enc3 h1 h2 h3]
        simp only [List.cons_append, List.nil_append, decodeOne, isCont, second3,
          u8_toNat (show c.toNat / 4096 % 16 + 224 < 256 by omega),
          u8_toNat (show c.toNat / 64 % 64 + 128 < 256 by omega),
          u8_toNat (show c.toNat % 64 + 128 < 256 by omega)]
        rw [if_neg (by omega), if_neg (by omega), if_neg (by omega), if_pos (by omega),
          if_pos, if_pos (by simp; omega), ofNat_eq (c := c) (by omega)]
        · rfl
        · split
          · simp; omega
          · split
            · simp; omega
            · simp; omega
      · rw [enc4 h1 h2 h3]
        simp only [List.cons_append, List.nil_append, decodeOne, isCont, second4,
          u8_toNat (show c.toNat / 262144 % 8 + 240 < 256 by omega),
          u8_toNat (show c.toNat / 4096 % 64 + 128 < 256 by omega),
          u8_toNat (show c.toNat / 64 % 64 + 128 < 256 by omega),
          u8_toNat (show c.toNat % 64 + 128 < 256 by omega)]
        rw [if_neg (by omega), if_neg (by omega), if_neg (by omega), if_neg (by omega),
          if_pos (by omega), if_pos, if_pos (by simp; omega), if_pos (by simp; omega),
          ofNat_eq (c := c) (by omega)]
        · rfl
        · split
          · simp; omega
          · split
            · simp; omega
            · simp; omega

theorem isCont_iff (b : UInt8) : isCont b = true ↔ 0x80 ≤ b.toNat ∧ b.toNat ≤ 0xBF := by
  simp [isCont]

theorem second3_bounds {a b : Nat} (h : second3 a b = true) :
    0x80 ≤ b ∧ b ≤ 0xBF ∧ (a = 0xE0 → 0xA0 ≤ b) ∧ (a = 0xED → b ≤ 0x9F) := by
  unfold second3 at h
  split at h
  · simp at h; omega
  · split at h
    · simp at h; omega
    · simp at h; omega

theorem second4_bounds {a b : Nat} (h : second4 a b = true) :
    0x80 ≤ b ∧ b ≤ 0xBF ∧ (a = 0xF0 → 0x90 ≤ b) ∧ (a = 0xF4 → b ≤ 0x8F) := by
  unfold second4 at h
  split at h
  · simp at h; omega
  · split at h
    · simp at h; omega
    · simp at h; omega

/-- What a decoded character says about the input: it starts with its encoding. -/
theorem decodeOne_char {b : Bytes} {c : Char} {n : Nat} (h : decodeOne b = .char c n) :
    ∃ t, b = String.utf8EncodeChar c ++ t ∧ n = (String.utf8EncodeChar c).length := by
  match b with
  | [] => cases h
  | b0 :: rest =>
    have hb0 := b0.toNat_lt
    unfold decodeOne at h
    dsimp only at h
    split at h
    · rename_i h0
      injection h with hc hn
      have hcn : c.toNat = b0.toNat := by rw [← hc]; exact toNat_ofNat (by omega)
      refine ⟨rest, ?_, ?_⟩
      · rw [enc1 (by omega), u8_ofNat_eq hcn]; rfl
      · rw [enc1 (by omega), ← hn]; rfl
    · split at h
      · cases h
      · split at h
        · match rest with
          | [] => cases h
          | b1 :: rest =>
            have hb1 := b1.toNat_lt
            dsimp only at h
            split at h
            · rename_i hc1
              rw [isCont_iff] at hc1
              injection h with hc hn
              have hcn : c.toNat = (b0.toNat - 192) * 64 + (b1.toNat - 128) := by
                rw [← hc]; exact toNat_ofNat (by omega)
              refine ⟨rest, ?_, ?_⟩
              · rw [enc2 (by omega) (by omega), u8_ofNat_eq (a := b0) (by omega),
                  u8_ofNat_eq (a := b1) (by omega)]
                rfl
              · rw [enc2 (by omega) (by omega), ← hn]; rfl
            · cases h
        · split at h
          · match rest with
            | [] => cases h
            | b1 :: rest =>
              have hb1 := b1.toNat_lt
              dsimp only at h
              split at h
              · rename_i hs
                have hs := second3_bounds hs
                match rest with
                | [] => cases h
                | b2 :: rest =>
                  dsimp only at h
                  split at h
                  · rename_i hc2
                    rw [isCont_iff] at hc2
                    injection h with hc hn
                    have hcn : c.toNat = (b0.toNat - 224) * 4096 + (b1.toNat - 128) * 64 +
                        (b2.toNat - 128) := by
                      rw [← hc]; exact toNat_ofNat (by omega)
                    refine ⟨rest, ?_, ?_⟩
                    · rw [enc3 (by omega) (by omega) (by omega), u8_ofNat_eq (a := b0) (by omega),
                        u8_ofNat_eq (a := b1) (by omega), u8_ofNat_eq (a := b2) (by omega)]
                      rfl
                    · rw [enc3 (by omega) (by omega) (by omega), ← hn]; rfl
                  · cases h
              · cases h
          · split at h
            · match rest with
              | [] => cases h
              | b1 :: rest =>
                have hb1 := b1.toNat_lt
                dsimp only at h
                split at h
                · rename_i hs
                  have hs := second4_bounds hs
                  match rest with
                  | [] => cases h
                  | b2 :: rest =>
                    dsimp only at h
                    split at h
                    · rename_i hc2
                      rw [isCont_iff] at hc2
                      match rest with
                      | [] => cases h
                      | b3 :: rest =>
                        dsimp only at h
                        split at h
                        · rename_i hc3
                          rw [isCont_iff] at hc3
                          injection h with hc hn
                          have hcn : c.toNat = (b0.toNat - 240) * 262144 +
                              (b1.toNat - 128) * 4096 + (b2.toNat - 128) * 64 +
                              (b3.toNat - 128) := by
                            rw [← hc]; exact toNat_ofNat (by omega)
                          refine ⟨rest, ?_, ?_⟩
                          · rw [enc4 (by omega) (by omega) (by omega),
                              u8_ofNat_eq (a := b0) (by omega), u8_ofNat_eq (a := b1) (by omega),
                              u8_ofNat_eq (a := b2) (by omega), u8_ofNat_eq (a := b3) (by omega)]
                            rfl
                          · rw [enc4 (by omega) (by omega) (by omega), ← hn]; rfl
                        · cases h
                    · cases h
                · cases h
            · cases h

/-- `incomplete` means that the input is the beginning of some character. -/
theorem decodeOne_incomplete {b : Bytes} (h : decodeOne b = .incomplete) :
    ∃ c t, t ≠ [] ∧ String.utf8EncodeChar c = b ++ t := by
  match b with
  | [] => exact ⟨'a', String.utf8EncodeChar 'a', encodeChar_ne_nil _, rfl⟩
  | b0 :: rest =>
    have hb0 := b0.toNat_lt
    unfold decodeOne at h
    dsimp only at h
    split at h
    · cases h
    · split at h
      · cases h
      · split at h
        · match rest with
          | [] =>
            have hcn : (Char.ofNat ((b0.toNat - 192) * 64)).toNat = (b0.toNat - 192) * 64 :=
              toNat_ofNat (by omega)
            refine ⟨Char.ofNat ((b0.toNat - 192) * 64), [128], by simp, ?_⟩
            rw [enc2 (by omega) (by omega), u8_ofNat_eq (a := b0) (by omega),
              u8_ofNat_eq (a := 128) (show _ = 128 by omega)]
            rfl
          | b1 :: rest =>
            dsimp only at h
            split at h <;> cases h
        · split at h
          · match rest with
            | [] =>
              -- choose the middle of the allowed range of second bytes
              have hcn : (Char.ofNat ((b0.toNat - 224) * 4096 +
                  (if b0.toNat = 224 then 2048 else 0))).toNat =
                  (b0.toNat - 224) * 4096 + (if b0.toNat = 224 then 2048 else 0) :=
                toNat_ofNat (by split <;> omega)
              refine ⟨Char.ofNat ((b0.toNat - 224) * 4096 + (if b0.toNat = 224 then 2048 else 0)),
                [if b0.toNat = 224 then 160 else 128, 128], by simp, ?_⟩
              by_cases he : b0.toNat = 224
              · simp only [he, if_true] at hcn ⊢
                rw [enc3 (by omega) (by omega) (by omega), u8_ofNat_eq (a := b0) (by omega),
                  u8_ofNat_eq (a := 160) (show _ = 160 by omega),
                  u8_ofNat_eq (a := 128) (show _ = 128 by omega)]
                rfl
              · simp only [he, if_false] at hcn ⊢
                rw [enc3 (by omega) (by omega) (by omega), u8_ofNat_eq (a := b0) (by omega),
                  u8_ofNat_eq (n := _ / 64 % 64 + 128) (a := 128) (show _ = 128 by omega),
                  u8_ofNat_eq (n := _ % 64 + 128) (a := 128) (show _ = 128 by omega)]
                rfl
            | b1 :: rest =>
              have hb1 := b1.toNat_lt
              dsimp only at h
              split at h
              · rename_i hs
                have hs := second3_bounds hs
                match rest with
                | [] =>
                  have hcn : (Char.ofNat ((b0.toNat - 224) * 4096 + (b1.toNat - 128) * 64)).toNat =
                      (b0.toNat - 224) * 4096 + (b1.toNat - 128) * 64 := toNat_ofNat (by omega)
                  refine ⟨Char.ofNat ((b0.toNat - 224) * 4096 + (b1.toNat - 128) * 64), [128],
                    by simp, ?_⟩
                  rw [enc3 (by omega) (by omega) (by omega), u8_ofNat_eq (a := b0) (by omega),
                    u8_ofNat_eq (a := b1) (by omega),
                    u8_ofNat_eq (a := 128) (show _ = 128 by omega)]
                  rfl
                | b2 :: rest =>
                  dsimp only at h
                  split at h <;> cases h
              · cases h
          · split at h
            · match rest with
              | [] =>
                by_cases he : b0.toNat = 240
                · refine ⟨Char.ofNat 65536, [144, 128, 128], by simp, ?_⟩
                  have : b0 = 240 := u8_ext he
                  subst this
                  decide
                · have hcn : (Char.ofNat ((b0.toNat - 240) * 262144)).toNat =
                      (b0.toNat - 240) * 262144 := toNat_ofNat (by omega)
                  refine ⟨Char.ofNat ((b0.toNat - 240) * 262144), [128, 128, 128], by simp, ?_⟩
                  rw [enc4 (by omega) (by omega) (by omega), u8_ofNat_eq (a := b0) (by omega),
                    u8_ofNat_eq (n := _ / 4096 % 64 + 128) (a := 128) (show _ = 128 by omega),
                    u8_ofNat_eq (n := _ / 64 % 64 + 128) (a := 128) (show _ = 128 by omega),
                    u8_ofNat_eq (n := _ % 64 + 128) (a := 128) (show _ = 128 by omega)]
                  rfl
              | b1 :: rest =>
                have hb1 := b1.toNat_lt
                dsimp only at h
                split at h
                · rename_i hs
                  have hs := second4_bounds hs
                  match rest with
                  | [] =>
                    have hcn : (Char.ofNat ((b0.toNat - 240) * 262144 +
                        (b1.toNat - 128) * 4096)).toNat =
                        (b0.toNat - 240) * 262144 + (b1.toNat - 128) * 4096 :=
                      toNat_ofNat (by omega)
                    refine ⟨Char.ofNat ((b0.toNat - 240) * 262144 + (b1.toNat - 128) * 4096),
                      [128, 128], by simp, ?_⟩
                    rw [enc4 (by omega) (by omega) (by omega), u8_ofNat_eq (a := b0) (by omega),
                      u8_ofNat_eq (a := b1) (by omega),
                      u8_ofNat_eq (n := _ / 64 % 64 + 128) (a := 128) (show _ = 128 by omega),
                      u8_ofNat_eq (n := _ % 64 + 128) (a := 128) (show _ = 128 by omega)]
                    rfl
                  | b2 :: rest =>
                    dsimp only at h
                    split at h
                    · rename_i hc2
                      rw [isCont_iff] at hc2
                      match rest with
                      | [] =>
                        have hcn : (Char.ofNat ((b0.toNat - 240) * 262144 +
                            (b1.toNat - 128) * 4096 + (b2.toNat - 128) * 64)).toNat =
                            (b0.toNat - 240) * 262144 + (b1.toNat - 128) * 4096 +
                            (b2.toNat - 128) * 64 := toNat_ofNat (by omega)
                        refine ⟨Char.ofNat ((b0.toNat - 240) * 262144 + (b1.toNat - 128) * 4096 +
                            (b2.toNat - 128) * 64), [128], by simp, ?_⟩
                        rw [enc4 (by omega) (by omega) (by omega), u8_ofNat_eq (a := b0) (by omega),
                          u8_ofNat_eq (a := b1) (by omega), u8_ofNat_eq (a := b2) (by omega),
                          u8_ofNat_eq (n := _ % 64 + 128) (a := 128) (show _ = 128 by omega)]
                        rfl
                      | b3 :: rest =>
                        dsimp only at h
                        split at h <;> cases h
                    · cases h
                · cases h
            · cases h

end Mortal

namespace Mortal

/-- Invalid input stays invalid whatever follows. -/
theorem decodeOne_invalid_append {b : Bytes} (h : decodeOne b = .invalid) (t : Bytes) :
    decodeOne (b ++ t) = .invalid := by
  match b with
  | [] => cases h
  | [b0] =>
    simp only [List.cons_append, List.nil_append]
    unfold decodeOne at h ⊢
    dsimp only at h ⊢
    repeat' split at h
    all_goals first | cases h | skip
    · rw [if_neg (by assumption), if_pos (by assumption)]
    · rw [if_neg (by assumption), if_neg (by assumption), if_neg (by assumption),
        if_neg (by assumption), if_neg (by assumption)]
  | [b0, b1] =>
    simp only [List.cons_append, List.nil_append]
    unfold decodeOne at h ⊢
    dsimp only at h ⊢
    repeat' split at h
    all_goals first | cases h | skip
    all_goals simp [*]
  | [b0, b1, b2] =>
    simp only [List.cons_append, List.nil_append]
    unfold decodeOne at h ⊢
    dsimp only at h ⊢
    repeat' split at h
    all_goals first | cases h | skip
    all_goals simp [*]
  | b0 :: b1 :: b2 :: b3 :: r =>
    simp only [List.cons_append]
    unfold decodeOne at h ⊢
    exact h

/-- A proper beginning of a character decodes as incomplete. -/
theorem decodeOne_prefix {b t : Bytes} {c : Char} (h : String.utf8EncodeChar c = b ++ t)
    (ht : t ≠ []) : decodeOne b = .incomplete := by
  have he := decodeOne_encode c []
  rw [List.append_nil] at he
  cases hd : decodeOne b with
  | incomplete => rfl
  | invalid =>
    have := decodeOne_invalid_append hd t
    rw [← h, he] at this
    cases this
  | char d n =>
    obtain ⟨u, hu, hn⟩ := decodeOne_char hd
    have h2 := decodeOne_encode d (u ++ t)
    rw [← List.append_assoc, ← hu, ← h, he] at h2
    injection h2 with h3 h4
    subst h3
    have h5 := congrArg List.length h
    have h6 := congrArg List.length hu
    rw [List.length_append] at h5 h6
    have := List.length_pos_iff.mpr ht
    omega

theorem encode_cons (c : Char) (s : List Char) :
    encode (c :: s) = String.utf8EncodeChar c ++ encode s := by simp [encode]

theorem encode_append (s t : List Char) : encode (s ++ t) = encode s ++ encode t := by
  simp [encode]

@[simp] theorem encode_nil : encode [] = [] := rfl

theorem encode_length (s : List Char) : (encode s).length = strLen s := by
  induction s with
  | nil => rfl
  | cons c s ih => rw [encode_cons, List.length_append, encodeChar_length, ih]; rfl

/-- The fuel does not matter once it covers the input. -/
theorem decodeAll_fuel : ∀ (f g : Nat) (b : Bytes), b.length ≤ f → b.length ≤ g →
    decodeAll f b = decodeAll g b := by
  intro f
  induction f with
  | zero =>
    intro g b hf hg
    have : b = [] := List.eq_nil_of_length_eq_zero (by omega)
    subst this
    cases g <;> rfl
  | succ f ih =>
    intro g b hf hg
    match b with
    | [] => cases g <;> rfl
    | x :: xs =>
      match g with
      | 0 => simp at hg
      | g + 1 =>
        unfold decodeAll
        cases hd : decodeOne (x :: xs) with
        | incomplete => rfl
        | invalid => rfl
        | char c n =>
          obtain ⟨t, ht, hn⟩ := decodeOne_char hd
          have hp := List.length_pos_iff.mpr (encodeChar_ne_nil c)
          have : ((x :: xs).drop n).length ≤ f ∧ ((x :: xs).drop n).length ≤ g := by
            simp only [List.length_drop, List.length_cons] at hf hg ⊢
            omega
          simp only [ih g _ this.1 this.2]

theorem decodeAll_encode (s : List Char) (t : Bytes) :
    decodeAll (encode s ++ t).length (encode s ++ t) =
      (s ++ (decodeAll t.length t).1, (decodeAll t.length t).2) := by
  induction s with
  | nil => rfl
  | cons c s ih =>
    have hne : String.utf8EncodeChar c ≠ [] := encodeChar_ne_nil c
    have hp := List.length_pos_iff.mpr hne
    rw [encode_cons, List.append_assoc]
    have hd := decodeOne_encode c (encode s ++ t)
    generalize hb : String.utf8EncodeChar c ++ (encode s ++ t) = b at hd ⊢
    match b with
    | [] =>
      have := congrArg List.length hb
      simp only [List.length_append, List.length_nil] at this
      omega
    | x :: xs =>
      have step : decodeAll (xs.length + 1) (x :: xs) =
          (c :: (decodeAll xs.length ((x :: xs).drop (String.utf8EncodeChar c).length)).1,
            (decodeAll xs.length ((x :: xs).drop (String.utf8EncodeChar c).length)).2) := by
        rw [decodeAll, hd]
      refine step.trans ?_
      have : (x :: xs).drop (String.utf8EncodeChar c).length = encode s ++ t := by
        rw [← hb]; simp
      rw [this]
      have hl := congrArg List.length hb
      simp only [List.length_append, List.length_cons] at hl
      rw [decodeAll_fuel xs.length (encode s ++ t).length _ (by simp; omega) (Nat.le_refl _), ih]
      rfl

/-- What the scan says about the input. -/
theorem decodeAll_sound : ∀ (f : Nat) (b : Bytes), b.length ≤ f →
    ∃ t, b = encode (decodeAll f b).1 ++ t ∧
      match (decodeAll f b).2 with
      | .done => t = []
      | .incomplete => t ≠ [] ∧ decodeOne t = .incomplete
      | .invalid => t ≠ [] ∧ decodeOne t = .invalid := by
  intro f
  induction f with
  | zero =>
    intro b hb
    have : b = [] := List.eq_nil_of_length_eq_zero (by omega)
    subst this
    exact ⟨[], rfl, rfl⟩
  | succ f ih =>
    intro b hb
    match b with
    | [] => exact ⟨[], rfl, rfl⟩
    | x :: xs =>
      unfold decodeAll
      cases hd : decodeOne (x :: xs) with
      | incomplete => exact ⟨x :: xs, rfl, by simp, hd⟩
      | invalid => exact ⟨x :: xs, rfl, by simp, hd⟩
      | char c n =>
        obtain ⟨t, ht, hn⟩ := decodeOne_char hd
        have hp := List.length_pos_iff.mpr (encodeChar_ne_nil c)
        have hl := congrArg List.length ht
        simp only [List.length_append, List.length_cons] at hl hb
        have hdrop : (x :: xs).drop n = t := by rw [ht, hn]; simp
        dsimp only
        rw [hdrop]
        obtain ⟨u, hu, hm⟩ := ih t (by omega)
        refine ⟨u, ?_, hm⟩
        rw [encode_cons, List.append_assoc, ← hu]
        exact ht

/-- Encodings determine the text. -/
theorem encode_prefix {s t : List Char} {u : Bytes} (h : encode s <+: encode t ++ u)
    (hu : (decodeAll u.length u).1 = []) : s <+: t := by
  obtain ⟨v, hv⟩ := h
  have h1 := decodeAll_encode s v
  have h2 := decodeAll_encode t u
  rw [hv, h2, hu, List.append_nil] at h1
  injection h1 with h3 h4
  exact ⟨_, h3.symm⟩

theorem encode_inj {s t : List Char} (h : encode s = encode t) : s = t := by
  have h1 := decodeAll_encode s []
  have h2 := decodeAll_encode t []
  rw [List.append_nil] at h1 h2
  rw [h, h2] at h1
  have := congrArg Prod.fst h1
  simpa [decodeAll] using this.symm

theorem encode_eq_nil {s : List Char} : encode s = [] ↔ s = [] :=
  ⟨fun h => encode_inj (h.trans rfl), fun h => by rw [h]; rfl⟩

/-- `utf8_prefix` of a text followed by something that does not start with a character. -/
theorem utf8Prefix_spec (b : Bytes) :
    (∃ s t, b = encode s ++ t ∧ utf8Prefix b = some s ∧
      (t = [] ∨ (t ≠ [] ∧ decodeOne t = .incomplete) ∨
        (s ≠ [] ∧ t ≠ [] ∧ decodeOne t = .invalid))) ∨
    (b ≠ [] ∧ decodeOne b = .invalid ∧ utf8Prefix b = none) := by
  obtain ⟨t, ht, hm⟩ := decodeAll_sound b.length b (Nat.le_refl _)
  unfold utf8Prefix
  generalize decodeAll b.length b = r at ht hm ⊢
  obtain ⟨s, e⟩ := r
  dsimp only at ht hm ⊢
  cases e with
  | done => exact Or.inl ⟨s, t, ht, rfl, Or.inl hm⟩
  | incomplete =>
    refine Or.inl ⟨s, t, ht, ?_, Or.inr (Or.inl hm)⟩
    dsimp only
    split
    · rfl
    · rename_i hs
      simp only [ne_eq, Decidable.not_not] at hs
      subst hs
      rfl
  | invalid =>
    by_cases hs : s = []
    · subst hs
      right
      simp only [encode_nil, List.nil_append] at ht
      subst ht
      refine ⟨hm.1, hm.2, ?_⟩
      simp
    · left
      refine ⟨s, t, ht, ?_, Or.inr (Or.inr ⟨hs, hm⟩)⟩
      simp [hs]

theorem utf8Prefix_text (s : List Char) : utf8Prefix (encode s) = some s := by
  have := decodeAll_encode s []
  rw [List.append_nil] at this
  unfold utf8Prefix
  rw [this]
  simp [decodeAll]

end Mortal
