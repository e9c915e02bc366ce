import Verif.Spec.WinKeys
import Verif.Props.WinPure

/-! # C49: what is told of every key record -/

namespace Mortal
open Spec

theorem or64 (n : Nat) (h : n < 256) : n ||| 64 = if n % 128 < 64 then n + 64 else n := by
  have : ∀ n : Fin 256, n.1 ||| 64 = if n.1 % 128 < 64 then n.1 + 64 else n.1 := by decide +kernel
  exact this ⟨n, h⟩

theorem unctrlLower_told (c : Char) : unctrlLower c = ctrlTold c.toNat := by
  have h1 : unctrlUpper c = Char.ofNat (c.toNat % 256 ||| 64) := by
    unfold unctrlUpper u8AsChar Char.asU8 UNCTRL_BIT
    simp [BitVec.toNat_or]
  rw [or64 _ (Nat.mod_lt _ (by decide))] at h1
  have h2 : c.toNat % 256 % 128 = c.toNat % 128 := by omega
  rw [h2] at h1
  unfold unctrlLower ctrlTold
  rw [h1]
  have hlt : (if c.toNat % 128 < 64 then c.toNat % 256 + 64 else c.toNat % 256) < 256 := by
    split <;> omega
  generalize (if c.toNat % 128 < 64 then c.toNat % 256 + 64 else c.toNat % 256) = m at hlt
  have hv : (Char.ofNat m).toNat = m := by
    have : ∀ m : Fin 256, (Char.ofNat m.1).toNat = m.1 := by decide +kernel
    exact this ⟨m, hlt⟩
  unfold toAsciiLowercase
  rw [hv]
  dsimp only
  split <;> rfl

theorem vkKey_none_of {n : Nat} (hv : ∀ key, (n, key) ∉ namedKeys) : vkKey n = none := by
  cases h : vkKey n
  · rfl
  · exact absurd ((vkKey_iff _ _).1 h) (hv _)

theorem keyOf_iff (c : Char) (key : Key) : KeyOf c key ↔ key = Key.ofChar c :=
  ⟨fun h => C07_keyOf_unique c key _ h (C07_key_of_char c), fun h => h ▸ C07_key_of_char c⟩

/-- **C49.** What is told of a key record, in every case: which virtual key, which character and which of the
modifiers. -/
theorem C49_key_exact (k : KeyRec) (r : Option Key) : keyPressEvent (.key k) = r ↔ KeyTold k r := by
  constructor
  · rintro rfl
    cases hd : k.down with
    | false => rw [C49_up _ (fun k' e => by cases e; exact hd)]; exact .up hd
    | true =>
      cases hn : vkKey k.vk.toNat with
      | some key =>
        rw [C49_named k key ((vkKey_iff _ _).1 hn) hd]
        exact .named hd ((vkKey_iff _ _).1 hn)
      | none =>
        have hv : ∀ key, (k.vk.toNat, key) ∉ namedKeys := fun key h => by
          rw [(vkKey_iff _ _).2 h] at hn; cases hn
        by_cases ha : k.keys.getLsbD 0 = true ∨ k.keys.getLsbD 1 = true
        · rw [C49_altgr_lost k hv ha]; exact .alt hd hv ha
        · have ha' : k.keys.getLsbD 0 = false ∧ k.keys.getLsbD 1 = false := by
            simpa using ha
          by_cases hu : k.uchar.toNat = 0
          · have : keyPressEvent (.key k) = none := by
              have h0 : k.uchar = 0 := by
                apply BitVec.eq_of_toNat_eq; simpa using hu
              simp [keyPressEvent, hd, hn, h0]
            rw [this]; exact .silent hd hv hu
          · have hne : ¬ k.uchar = 0#16 := fun e => hu (by rw [e]; rfl)
            by_cases hs : 0xD800 ≤ k.uchar.toNat ∧ k.uchar.toNat < 0xE000
            · have := keyPress_surrogate (keys := k.keys) hv hs.1 hs.2 true
              rw [← hd] at this
              rw [this]
              exact .half hd hv hs.1 hs.2
            · obtain ⟨c, hc⟩ : ∃ c : Char, c.toNat = k.uchar.toNat :=
                ⟨Char.ofNatAux k.uchar.toNat (by have := k.uchar.isLt; unfold Nat.isValidChar; omega), rfl⟩
              have hf := charFromU32_char c
              rw [hc] at hf
              have hna : hasAlt k.keys = false := by rw [hasAlt_eq, ha'.1, ha'.2]; rfl
              by_cases hk : k.keys.getLsbD 2 = true ∨ k.keys.getLsbD 3 = true
              · have hck : hasCtrl k.keys = true := by rw [hasCtrl_eq]; rcases hk with h | h <;> simp [h]
                have : keyPressEvent (.key k) = some (.ctrl (ctrlTold k.uchar.toNat)) := by
                  rw [← hc, ← unctrlLower_told]
                  simp [keyPressEvent, hd, hn, hna, hne, hf, hck]
                rw [this]; exact .ctrl hd hv ha' hk hu hs
              · have hck : hasCtrl k.keys = false := by rw [hasCtrl_eq]; simpa using hk
                have : keyPressEvent (.key k) = some (Key.ofChar c) := by
                  simp [keyPressEvent, hd, hn, hna, hne, hf, hck]
                rw [this]
                refine .char hd hv (fun i hi => ?_) hu hc (C07_key_of_char c)
                have hk' : k.keys.getLsbD 2 = false ∧ k.keys.getLsbD 3 = false := by simpa using hk
                have : i = 0 ∨ i = 1 ∨ i = 2 ∨ i = 3 := by omega
                rcases this with rfl | rfl | rfl | rfl
                exacts [ha'.1, ha'.2, hk'.1, hk'.2]
  · intro h
    cases h with
    | up hd => exact C49_up _ (fun k' e => by cases e; exact hd)
    | named hd hn => exact C49_named k _ hn hd
    | alt hd hv ha => exact C49_altgr_lost k hv ha
    | silent hd hv hu =>
      have h0 : k.uchar = 0 := by
        apply BitVec.eq_of_toNat_eq; simpa using hu
      simp [keyPressEvent, vkKey_none_of hv, h0]
    | half hd hv h1 h2 =>
      have := keyPress_surrogate (keys := k.keys) hv h1 h2 k.down
      exact this
    | ctrl hd hv ha hk hu hs =>
      have hne : ¬ k.uchar = 0#16 := fun e => hu (by rw [e]; rfl)
      obtain ⟨c, hc⟩ : ∃ c : Char, c.toNat = k.uchar.toNat :=
        ⟨Char.ofNatAux k.uchar.toNat (by have := k.uchar.isLt; unfold Nat.isValidChar; omega), rfl⟩
      have hf := charFromU32_char c
      rw [hc] at hf
      have hna : hasAlt k.keys = false := by rw [hasAlt_eq, ha.1, ha.2]; rfl
      have hck : hasCtrl k.keys = true := by rw [hasCtrl_eq]; rcases hk with h | h <;> simp [h]
      rw [← hc, ← unctrlLower_told]
      simp [keyPressEvent, hd, vkKey_none_of hv, hna, hne, hf, hck]
    | @char hd hv hm hu c hc key hk =>
      have hne : ¬ k.uchar = 0#16 := fun e => hu (by rw [e]; rfl)
      have hf := charFromU32_char c
      rw [hc] at hf
      have hna : hasAlt k.keys = false := by
        rw [hasAlt_eq, hm 0 (by omega), hm 1 (by omega)]; rfl
      have hck : hasCtrl k.keys = false := by
        rw [hasCtrl_eq, hm 2 (by omega), hm 3 (by omega)]; rfl
      rw [(keyOf_iff c key).1 hk]
      simp [keyPressEvent, hd, vkKey_none_of hv, hna, hne, hf, hck]

/-- Ctrl with the digit 1 is told as Ctrl-Q; F5 with Alt as F5; a key with AltGr not at all. -/
example : KeyTold ⟨true, 0x31, 0x31, 0x8⟩ (some (.ctrl 'q')) ∧ KeyTold ⟨true, 0x74, 0, 0x1⟩ (some (.f 5)) ∧
    KeyTold ⟨true, 0x51, 0x40, 0x9⟩ none := by
  refine ⟨?_, ?_, ?_⟩ <;> rw [← C49_key_exact] <;> decide

theorem typed_cons (vk : BitVec 16) (keys : BitVec 32) (c : Char) (s : List Char) :
    typed vk keys (c :: s) = typed vk keys [c] ++ typed vk keys s := by
  simp [typed]

theorem typed_nul (vk : BitVec 16) (keys : BitVec 32) (hv : ∀ key, (vk.toNat, key) ∉ namedKeys) (c : Char)
    (h0 : c.toNat = 0) : (typed vk keys [c]).filterMap keyPressEvent = [] := by
  have h1 : ∀ d, keyPressEvent (.key ⟨d, vk, BitVec.ofNat 16 c.toNat, keys⟩) = none := by
    intro d
    rw [C49_key_exact]
    cases d
    · exact .up rfl
    · exact .silent rfl hv (by rw [h0]; rfl)
  have hc : c.toNat < 0x10000 := by omega
  simp only [typed, encodeUtf16, if_pos hc, strokes, List.flatMap_cons, List.flatMap_nil,
    List.append_nil, List.filterMap_cons, h1, List.filterMap_nil]

theorem typed_told (vk : BitVec 16) (keys : BitVec 32) (hv : ∀ key, (vk.toNat, key) ∉ namedKeys)
    (f : Char → Key)
    (hf : ∀ c : Char, c.toNat ≠ 0 → c.toNat < 0x10000 → (typed vk keys [c]).filterMap keyPressEvent = [f c])
    (s : List Char) : (typed vk keys s).filterMap keyPressEvent = (basicPlane s).map f := by
  induction s with
  | nil => rfl
  | cons c s ih =>
    rw [typed_cons, List.filterMap_append, ih]
    unfold basicPlane
    by_cases h0 : c.toNat = 0
    · rw [typed_nul vk keys hv c h0, List.filter_cons_of_neg (by simp [h0])]; rfl
    · by_cases hc : c.toNat < 0x10000
      · rw [hf c h0 hc, List.filter_cons_of_pos (by simp [hc]; simpa using h0)]; rfl
      · rw [C49_supplementary_lost vk keys hv c (by omega), List.filter_cons_of_neg (by simp; omega)]; rfl

/-- **C49.** What is told of any text typed with neither Alt nor Ctrl, in place of `C49_text_partial`: the keys of
its characters of the basic plane in their order, and nothing of the others. -/
theorem C49_text_exact (vk : BitVec 16) (keys : BitVec 32) (hv : ∀ key, (vk.toNat, key) ∉ namedKeys)
    (hp : NoMods keys) (s : List Char) : ∃ f : Char → Key, (∀ c, KeyOf c (f c)) ∧
      (typed vk keys s).filterMap keyPressEvent = (basicPlane s).map f := by
  refine ⟨Key.ofChar, C07_key_of_char, typed_told vk keys hv _ (fun c h0 hc => ?_) s⟩
  obtain ⟨key, h1, h2⟩ := C49_char vk keys c hv hp hc h0
  rw [h1, (keyOf_iff c key).1 h2]

/-- So the smiley between two letters is lost, and only it. -/
example : (typed 0xE7 0 ['a', '😀', 'b']).filterMap keyPressEvent = [.char 'a', .char 'b'] := by decide

/-- **C49.** Precisely which printable texts are told character by character: those of the basic plane. -/
theorem C49_text_iff (vk : BitVec 16) (keys : BitVec 32) (hv : ∀ key, (vk.toNat, key) ∉ namedKeys)
    (hp : NoMods keys) (s : List Char) (hs : ∀ c ∈ s, 32 ≤ c.toNat ∧ c.toNat ≠ 127) :
    TypesAs vk keys s ↔ ∀ c ∈ s, c.toNat < 0x10000 := by
  refine ⟨fun h => ?_, fun h => C49_text_partial vk keys s hv hp fun c hc =>
    ⟨(hs c hc).1, (hs c hc).2, h c hc⟩⟩
  obtain ⟨f, -, h2⟩ := C49_text_exact vk keys hv hp s
  unfold TypesAs at h
  rw [h2] at h
  have hl := congrArg List.length h
  rw [List.length_map, List.length_map] at hl
  have := List.length_filter_eq_length_iff.1 hl
  intro c hc
  have := this c hc
  simp at this
  exact this.2

example : TypesAs 0xE7 0 ['ä', '語'] ∧ ¬ TypesAs 0xE7 0 ['ä', '😀'] := by
  refine ⟨?_, ?_⟩ <;> unfold TypesAs <;> decide

/-- **C49.** What is told of any text typed with Ctrl and without Alt, in place of `C49_ctrl_partial`. -/
theorem C49_ctrl_exact (vk : BitVec 16) (keys : BitVec 32) (hv : ∀ key, (vk.toNat, key) ∉ namedKeys)
    (ha : keys.getLsbD 0 = false ∧ keys.getLsbD 1 = false)
    (hk : keys.getLsbD 2 = true ∨ keys.getLsbD 3 = true) (s : List Char) :
    (typed vk keys s).filterMap keyPressEvent = (basicPlane s).map fun c => .ctrl (ctrlTold c.toNat) := by
  refine typed_told vk keys hv _ (fun c h0 hc => ?_) s
  have hu := C49_up (.key ⟨false, vk, BitVec.ofNat 16 c.toNat, keys⟩) (fun k e => by cases e; rfl)
  simp only [typed, encodeUtf16, if_pos hc, strokes, List.flatMap_cons, List.flatMap_nil,
    List.append_nil, List.filterMap_cons, keyPress_ctrl hv ha hk hc h0, hu, List.filterMap_nil,
    unctrlLower_told]

example : (typed 0x31 0x8 ['1', '\x03', 'б', 'A']).filterMap keyPressEvent =
    [.ctrl 'q', .ctrl 'c', .ctrl 'q', .ctrl 'a'] := by decide

theorem ctrlTold_small : ∀ n : Fin 256, n.1 ≠ 0 →
    (ctrlTold n.1 = (if n.1 < 32 then ctrlLetter n.1 else Char.ofNat n.1) ↔
      n.1 < 32 ∨ n.1 = 64 ∨ (91 ≤ n.1 ∧ n.1 ≤ 127) ∨ 192 ≤ n.1) := by decide +kernel

theorem ctrlTold_lt (n : Nat) : (ctrlTold n).toNat < 256 := by
  have h : ∀ m : Fin 256, (Char.ofNat (if 65 ≤ m.1 ∧ m.1 ≤ 90 then m.1 + 32 else m.1)).toNat < 256 := by
    decide +kernel
  unfold ctrlTold
  dsimp only
  refine h ⟨if n % 128 < 64 then n % 256 + 64 else n % 256, ?_⟩
  split <;> omega

/-- **C49.** Precisely which characters are told as Ctrl with them: the control codes, `@`, the ASCII characters
after `Z`, and the upper quarter of Latin-1. -/
theorem C49_ctrl_iff (vk : BitVec 16) (keys : BitVec 32) (c : Char)
    (hv : ∀ key, (vk.toNat, key) ∉ namedKeys)
    (ha : keys.getLsbD 0 = false ∧ keys.getLsbD 1 = false)
    (hk : keys.getLsbD 2 = true ∨ keys.getLsbD 3 = true) (h0 : c.toNat ≠ 0) :
    CtrlTypes vk keys c ↔
      c.toNat < 32 ∨ c.toNat = 64 ∨ (91 ≤ c.toNat ∧ c.toNat ≤ 127) ∨ (192 ≤ c.toNat ∧ c.toNat < 256) := by
  unfold CtrlTypes
  rw [C49_ctrl_exact vk keys hv ha hk]
  by_cases hc : c.toNat < 256
  · have hb : basicPlane [c] = [c] := by
      unfold basicPlane
      rw [List.filter_cons_of_pos (by simp; exact ⟨h0, by omega⟩)]; rfl
    have := ctrlTold_small ⟨c.toNat, hc⟩ h0
    dsimp only at this
    rw [Char.ofNat_toNat] at this
    rw [hb]
    simp only [List.map_cons, List.map_nil, List.cons.injEq, and_true, Key.ctrl.injEq]
    rw [this]
    omega
  · refine ⟨fun h => ?_, fun h => by omega⟩
    rw [if_neg (by omega)] at h
    by_cases hl : c.toNat < 0x10000
    · have hb : basicPlane [c] = [c] := by
        unfold basicPlane
        rw [List.filter_cons_of_pos (by simp; exact ⟨h0, by omega⟩)]; rfl
      rw [hb] at h
      simp only [List.map_cons, List.map_nil, List.cons.injEq, and_true, Key.ctrl.injEq] at h
      have := ctrlTold_lt c.toNat
      rw [h] at this
      omega
    · have hb : basicPlane [c] = [] := by
        unfold basicPlane
        rw [List.filter_cons_of_neg (by simp; omega)]; rfl
      rw [hb] at h
      cases h

example : CtrlTypes 0x43 0x8 '\x03' ∧ CtrlTypes 0xDB 0x8 '[' ∧ ¬ CtrlTypes 0x41 0x8 'A' := by
  refine ⟨?_, ?_, ?_⟩ <;> unfold CtrlTypes <;> decide

/-- **C49.** With Alt nothing of any text is told. -/
theorem C49_alt_text (vk : BitVec 16) (keys : BitVec 32) (hv : ∀ key, (vk.toNat, key) ∉ namedKeys)
    (ha : keys.getLsbD 0 = true ∨ keys.getLsbD 1 = true) (s : List Char) :
    (typed vk keys s).filterMap keyPressEvent = [] := by
  rw [List.filterMap_eq_nil_iff]
  intro e he
  simp only [typed, List.mem_flatMap, strokes] at he
  obtain ⟨c, -, u, -, h⟩ := he
  simp only [List.mem_cons, List.not_mem_nil, or_false] at h
  rcases h with rfl | rfl <;> exact C49_altgr_lost _ hv ha

example : (typed 0x51 0x1 ['@', 'q']).filterMap keyPressEvent = [] := by decide

end Mortal
