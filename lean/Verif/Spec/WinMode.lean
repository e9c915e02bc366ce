import Verif.Model.WinScreen
import Verif.Spec.Console

/-! # Specification: the modes of a Windows console -/

namespace Mortal.Spec

/-- The input mode while a terminal is prepared, bit by bit (wincon.h): whether Ctrl-C is processed
by the system (0) and whether the mouse is reported (4) is up to the configuration; line input (1),
echo (2), quick edit (6) and escape sequences (9) are off; size events (3) and extended flags (7) are
on; nothing else changes. -/
def preparedBit (cfg : PrepareConfig) (old : BitVec 32) (i : Nat) : Bool :=
  if i = 0 then !cfg.blockSignals
  else if i = 4 then cfg.enableMouse
  else if i = 1 ∨ i = 2 ∨ i = 6 ∨ i = 9 then false
  else if i = 3 ∨ i = 7 then true
  else old.getLsbD i

/-- The configuration asks for a signal that exists on Windows. -/
def AsksCtrl (cfg : PrepareConfig) : Prop :=
  cfg.reportSignals.contains .break = true ∨ cfg.reportSignals.contains .interrupt = true

instance (cfg : PrepareConfig) : Decidable (AsksCtrl cfg) := by unfold AsksCtrl; infer_instance

/-- Calls of `prepare` and `restore`; `restore` is given the result of the latest `prepare` not yet
restored. -/
inductive UseOp
  | prepare (cfg : PrepareConfig)
  | restore

/-- A sequence of such calls, with the results of `prepare` not yet restored. -/
def runUses (t : WTerm) : List UseOp → List WinPrepared → WM (List WinPrepared)
  | [], st => pure st
  | .prepare cfg :: l, st => do
    let p ← winPrepare t cfg
    runUses t l (p :: st)
  | .restore :: _, [] => SM.halt .blocked
  | .restore :: l, p :: st => do
    winRestore t p
    runUses t l st

/-- Properly nested uses. -/
inductive Nested : List UseOp → Prop
  | nil : Nested []
  | wrap (cfg : PrepareConfig) {a b : List UseOp} : Nested a → Nested b →
      Nested (.prepare cfg :: (a ++ .restore :: b))

/-- Only the input mode, the handlers and the records waiting may differ. -/
def SameOutput (c c' : Con) : Prop := c'.active = c.active ∧ c'.outs = c.outs

/-- A screen buffer of two lines and three columns showing blanks with the usual attributes. -/
def demoOut : OutBuf where
  glyph := { size := ⟨2, 3⟩, cell := fun _ => .narrow [' '] (), cur := some ⟨0, 0⟩, last := none,
             attrs := () }
  attr := fun _ => 7
  word := 7
  window := ⟨0, 0, 2, 1⟩
  mode := 3
  shape := (25, true)

/-- A console with that buffer as handle 2, and the usual input mode. -/
def demoCon : Con where
  inMode := 0x1F7
  handlers := 0
  queue := []
  active := 2
  outs := fun h => if h = 2 then some demoOut else none

/-- A terminal using handles 1 and 2 of that console. -/
def demoTerm : WTerm := { inH := 1, defAttrs := 7, oldOut := 3 }

/-- Its state, when the calls will be answered according to `os`. -/
def demoSt (os : List ConStep) : WinSt where
  outH := 2
  theme := ⟨none, none, .empty⟩
  rd := ⟨false, 0⟩
  catchSet := 0
  last := noSignal
  os := os
  log := []

end Mortal.Spec
