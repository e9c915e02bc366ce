import Verif.Spec.WinHandles

/-! # What is called when a screen is dropped on Windows (C76) -/

namespace Mortal.Spec

/-- The calls of the console among the events, with their answers. -/
def callsIn : List WEv → List (ConCall × Ans)
  | [] => []
  | .call c a :: l => (c, a) :: callsIn l
  | _ :: l => callsIn l

/-- `l` is what happens when the calls `L` are made in their order until one fails. -/
def Attempted (L : List ConCall) (l : List (ConCall × Ans)) : Prop :=
  l = L.map (·, .ok) ∨ ∃ A c B, L = A ++ c :: B ∧ l = A.map (·, .ok) ++ [(c, .fail)]

/-- What has to be called to leave a screen with the buffer `b`. -/
def leaving (t : WTerm) (x : WScreen) (b : Nat) : List ConCall :=
  (if x.state.clearHandler then [.setCtrlHandler false] else []) ++
    [.setMode t.inH (x.state.oldIn ||| 0x80#32), .setActive x.old, .close b]

/-- Whether a call makes, shows or closes a screen buffer. -/
def handles : ConCall → Bool
  | .create | .close _ | .setActive _ => true
  | _ => false

/-- The calls that make, show and close screen buffers. -/
def handling (D : List WEv) : List (ConCall × Ans) := (callsIn D).filter fun p => handles p.1

/-- What is done to screen buffers when a screen cannot be opened: nothing; none can be made; it cannot be
given its size, or not be shown, and one tries to close it; something fails after it has been shown. -/
inductive NotOpened : List (ConCall × Ans) → Prop
  | early : NotOpened []
  | unmade : NotOpened [(.create, .handle 0)]
  | unsized (b : Nat) (r : Ans) : b ≠ 0 → r = .ok ∨ r = .fail → NotOpened [(.create, .handle b), (.close b, r)]
  | unshown (b : Nat) (r : Ans) : b ≠ 0 → r = .ok ∨ r = .fail →
      NotOpened [(.create, .handle b), (.setActive b, .fail), (.close b, r)]
  | late (b : Nat) : b ≠ 0 → NotOpened [(.create, .handle b), (.setActive b, .ok)]

end Mortal.Spec
