import Verif.Spec.Win
import Verif.Spec.Util

/-! # What is told of a key record, in every case (C49) -/

namespace Mortal.Spec

/-- The character that Ctrl is reported with for a record with the character number `n`: of the last eight
bits, the seventh is set; letters are lower case. -/
def ctrlTold (n : Nat) : Char :=
  let m := if n % 128 < 64 then n % 256 + 64 else n % 256
  Char.ofNat (if 65 ≤ m ∧ m ≤ 90 then m + 32 else m)

/-- What is told of a key record. -/
inductive KeyTold (k : KeyRec) : Option Key → Prop
  /-- The key goes up. -/
  | up (hd : k.down = false) : KeyTold k none
  /-- A key that is told by its virtual key code. -/
  | named (hd : k.down = true) {key : Key} (hn : (k.vk.toNat, key) ∈ namedKeys) : KeyTold k (some key)
  /-- Any other key with Alt. -/
  | alt (hd : k.down = true) (hv : ∀ key, (k.vk.toNat, key) ∉ namedKeys)
      (ha : k.keys.getLsbD 0 = true ∨ k.keys.getLsbD 1 = true) : KeyTold k none
  /-- A key that types nothing, such as Shift. -/
  | silent (hd : k.down = true) (hv : ∀ key, (k.vk.toNat, key) ∉ namedKeys)
      (hu : k.uchar.toNat = 0) : KeyTold k none
  /-- One half of a character outside the basic plane. -/
  | half (hd : k.down = true) (hv : ∀ key, (k.vk.toNat, key) ∉ namedKeys)
      (h1 : 0xD800 ≤ k.uchar.toNat) (h2 : k.uchar.toNat < 0xE000) : KeyTold k none
  /-- A character with Ctrl. -/
  | ctrl (hd : k.down = true) (hv : ∀ key, (k.vk.toNat, key) ∉ namedKeys)
      (ha : k.keys.getLsbD 0 = false ∧ k.keys.getLsbD 1 = false)
      (hk : k.keys.getLsbD 2 = true ∨ k.keys.getLsbD 3 = true) (hu : k.uchar.toNat ≠ 0)
      (hs : ¬ (0xD800 ≤ k.uchar.toNat ∧ k.uchar.toNat < 0xE000)) :
      KeyTold k (some (.ctrl (ctrlTold k.uchar.toNat)))
  /-- A character with neither. -/
  | char (hd : k.down = true) (hv : ∀ key, (k.vk.toNat, key) ∉ namedKeys) (hm : NoMods k.keys)
      (hu : k.uchar.toNat ≠ 0) {c : Char} (hc : c.toNat = k.uchar.toNat) {key : Key} (hk : KeyOf c key) :
      KeyTold k (some key)

/-- The characters of a text that come as one record that is not zero. -/
def basicPlane (s : List Char) : List Char := s.filter fun c => decide (c.toNat ≠ 0 ∧ c.toNat < 0x10000)

end Mortal.Spec
