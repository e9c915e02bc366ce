import Verif.Spec.Unix

/-! # What `prepare` and `restore` should do (C33–C37) -/

namespace Mortal.Spec

/-- The terminal modes `new` are those a configuration asks for, on top of `old`. Bit positions of
the flag words are those of termios(3) on Linux: in the input flags 6 = INLCR, 8 = ICRNL,
10 = IXON; in the local flags 0 = ISIG, 1 = ICANON, 3 = ECHO. -/
structure ModesFor (cfg : PrepareConfig) (old new : Termios) : Prop where
  input : ∀ i < 32, new.iflag.getLsbD i =
    if i = 6 ∨ i = 8 then false else if i = 10 then cfg.enableControlFlow else old.iflag.getLsbD i
  loc : ∀ i < 32, new.lflag.getLsbD i =
    if i = 1 ∨ i = 3 then false else if i = 0 then !cfg.blockSignals else old.lflag.getLsbD i
  vmin : new.vmin = 0
  vtime : new.vtime = 0
  output : new.oflag = old.oflag
  control : new.cflag = old.cflag
  other : new.other = old.other

/-- Which signals are handled under a configuration. -/
def HandledUnder (cfg : PrepareConfig) : Sig → Prop
  | .cont | .winch => True
  | .int => cfg.reportSignals.contains .interrupt
  | .tstp => cfg.reportSignals.contains .suspend
  | .quit => cfg.reportSignals.contains .quit

/-- The handlers `new` are those a configuration asks for, on top of `old`. -/
def HandlersFor (cfg : PrepareConfig) (old new : SigTab) : Prop :=
  ∀ g, (HandledUnder cfg g → new.get g = .ours) ∧ (¬ HandledUnder cfg g → new.get g = old.get g)

/-- ESC `[?1006h` ESC `[?1002h`: report presses and releases with SGR coordinates. -/
def mouseOnText : Bytes :=
  [0x1b, 91, 63, 49, 48, 48, 54, 104, 0x1b, 91, 63, 49, 48, 48, 50, 104]
/-- ESC `[?1006l` ESC `[?1002l`. -/
def mouseOffText : Bytes :=
  [0x1b, 91, 63, 49, 48, 48, 54, 108, 0x1b, 91, 63, 49, 48, 48, 50, 108]
/-- ESC `[?1003h`: report all motion. -/
def motionOnText : Bytes := [0x1b, 91, 63, 49, 48, 48, 51, 104]
/-- ESC `[?1003l`. -/
def motionOffText : Bytes := [0x1b, 91, 63, 49, 48, 48, 51, 108]

/-- Keypad, mouse and mouse motion modes of the device. -/
structure DevModes where
  keypad : Bool
  mouse : Bool
  motion : Bool
deriving DecidableEq, Repr

/-- What something handed over for output does to these modes. -/
def modeStep (d : DevModes) : Out → DevModes
  | .cap .keypadXmit _ => { d with keypad := true }
  | .cap .keypadLocal _ => { d with keypad := false }
  | .text b =>
    if b = mouseOnText then { d with mouse := true }
    else if b = mouseOffText then { d with mouse := false }
    else if b = motionOnText then { d with motion := true }
    else if b = motionOffText then { d with motion := false }
    else d
  | _ => d

/-- The modes after a sequence of outputs, all off at first. -/
def devModes (log : List Out) : DevModes := log.foldl modeStep ⟨false, false, false⟩

/-- The calls that neither prepare nor restore. -/
def IsPlainCall : UOp → Prop
  | .prepare _ | .restore => False
  | _ => True

/-- Well-nested use of `prepare` and `restore`: calls of other methods, whatever their result, and
successful calls of `prepare` and `restore` in last-in first-out order. The other calls are
restricted by `Q` (the call, the state before, the state after). -/
inductive Balanced (env : REnv) (Q : UOp → US → US → Prop) : US → US → Prop
  | done (s : US) : Balanced env Q s s
  | call {op : UOp} {s s1 s2 : US} {r : URet} {st : List PrepareState} : IsPlainCall op →
      UOp.run env st s op = some (r, st, s1) → Q op s s1 → Balanced env Q s1 s2 →
      Balanced env Q s s2
  | nest {cfg : PrepareConfig} {p : PrepareState} {s s1 s2 s3 s4 : US} :
      prepare env cfg s = .ok p s1 → Balanced env Q s1 s2 → restore env p s2 = .ok () s3 →
      Balanced env Q s3 s4 → Balanced env Q s s4

/-- No restriction. -/
def AnyCall : UOp → US → US → Prop := fun _ _ _ => True

/-- The program's own output does not switch keypad or mouse modes. -/
def NoModeOutput : UOp → US → US → Prop
  | .write _, s, s1 => devModes s1.w.log = devModes s.w.log
  | _, _, _ => True

end Mortal.Spec
