import Verif.Spec.VtMods
import Verif.Spec.WinUserScreen
import Verif.Spec.WinKeys

/-! # The same user at an xterm and at a Windows console -/

namespace Mortal.Spec
open Mortal

/-- What is done with keyboard or mouse. -/
def ConAct.byUser : ConAct → Option UserAct
  | .user a => some a
  | .resize _ => none

/-- The key and mouse events. -/
def fromUser (l : List Event) : List Event :=
  l.filter fun
    | .key _ | .mouse _ => true
    | _ => false

/-- The record of a key that goes down while modifiers are held: as `KeyGoesDown`, but the modifiers are
told by the state of the control keys; a character with Alt still has its UTF-16 unit. -/
def HeldDown (k : Key) (m : ModifierState) (r : KeyRec) : Prop :=
  r.down = true ∧ m.alt = (r.keys.getLsbD 0 || r.keys.getLsbD 1) ∧
  m.ctrl = (r.keys.getLsbD 2 || r.keys.getLsbD 3) ∧ m.shift = r.keys.getLsbD 4 ∧
  match k with
  | .char c => (∀ key, (r.vk.toNat, key) ∉ namedKeys) ∧ r.uchar.toNat = c.toNat
  | key => (r.vk.toNat, key) ∈ namedKeys

end Mortal.Spec
