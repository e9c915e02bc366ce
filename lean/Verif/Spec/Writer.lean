import Verif.Model.Writer

/-!
# What the device makes of the output (C21–C24, C41)
-/

namespace Mortal.Spec

/-- Attributes in effect on the terminal; colours as ANSI colour numbers. -/
structure DevAttrs where
  fg : Option Nat
  bg : Option Nat
  bold : Bool
  italic : Bool
  reverse : Bool
  underline : Bool
deriving DecidableEq, Repr

/-- A terminal just reset. -/
def DevAttrs.plain : DevAttrs := ⟨none, none, false, false, false, false⟩

/-- What a command does to the attributes in effect, by the meaning terminfo(5) gives it. -/
def devStep (d : DevAttrs) : Out → DevAttrs
  | .cap .exitAttributeMode _ => .plain
  | .cap .enterBold _ => { d with bold := true }
  | .cap .enterItalics _ => { d with italic := true }
  | .cap .enterReverse _ => { d with reverse := true }
  | .cap .enterUnderline _ => { d with underline := true }
  | .cap .exitItalics _ => { d with italic := false }
  | .cap .exitUnderline _ => { d with underline := false }
  | .cap .setAForeground [n] => { d with fg := some n }
  | .cap .setABackground [n] => { d with bg := some n }
  | _ => d

/-- The attributes in effect after a sequence of commands. -/
def devAttrs (log : List Out) : DevAttrs := log.foldl devStep .plain

/-- ANSI colour numbers. -/
def ansi : Color → Nat
  | .black => 0 | .red => 1 | .green => 2 | .yellow => 3
  | .blue => 4 | .magenta => 5 | .cyan => 6 | .white => 7

/-- A requested theme, as the terminal should show it. -/
def view (t : Theme) : DevAttrs where
  fg := t.fg.map ansi
  bg := t.bg.map ansi
  bold := t.style.getLsbD 0
  italic := t.style.getLsbD 1
  reverse := t.style.getLsbD 2
  underline := t.style.getLsbD 3

/-- No attributes. -/
def plainTheme : Theme := ⟨none, none, 0#8⟩

/-- The attributes asked for by a call, given those asked for so far; `good` tells whether the call
returned `Ok`. A failed `write_styled` leaves its attributes on. -/
def want (t : Theme) : WOp × Bool → Theme
  | (.setFg c, _) => { t with fg := c }
  | (.setBg c, _) => { t with bg := c }
  | (.addStyle s, _) => { t with style := t.style ||| s }
  | (.removeStyle s, _) => { t with style := t.style &&& ~~~s }
  | (.setStyle s, _) => { t with style := s }
  | (.setTheme t', _) => t'
  | (.clearAttributes, _) => plainTheme
  | (.writeStyled fg bg s _, good) => if good then plainTheme else ⟨fg, bg, s⟩
  | _ => t

/-- The calls that only concern attributes. -/
def IsAttrCall : WOp → Prop
  | .setFg _ | .setBg _ | .addStyle _ | .removeStyle _ | .setStyle _ | .setTheme _
  | .clearAttributes => True
  | _ => False

/-- The nine capabilities that control attributes. -/
def IsAttrCap : Cap → Prop
  | .exitAttributeMode | .enterBold | .enterItalics | .enterReverse | .enterUnderline
  | .exitItalics | .exitUnderline | .setAForeground | .setABackground => True
  | _ => False

/-- The terminal supports all attributes. -/
def FullAttrs (env : WEnv) : Prop :=
  ∀ c, IsAttrCap c → ∃ f, env.db c = some f ∧ ∀ ps, (f ps).2 = true

/-- A history of calls together with which of them returned `Ok`. -/
def traceW (env : WEnv) : List WOp → WS → Option (List (WOp × Bool) × WS)
  | [], s => some ([], s)
  | op :: ops, s =>
    match op.run env s with
    | .ok s' => (traceW env ops s').map fun (l, s'') => ((op, true) :: l, s'')
    | .err _ s' => (traceW env ops s').map fun (l, s'') => ((op, false) :: l, s'')
    | .stop _ => none

/-- The bytes of something handed over for output. -/
def outBytes (env : WEnv) : Out → Bytes
  | .cap c ps =>
    match env.db c with
    | some f => (f ps).1
    | none => []
  | .text b => b
  | .junk b => b

/-- The bytes of everything handed over. -/
def logBytes (env : WEnv) (log : List Out) : Bytes := log.flatMap (outBytes env)

/-- The operating system never takes a part of what it is given. -/
def NoShortWrites (os : List WriteRes) : Prop := ∀ n, .wrote n ∈ os → n = 0

/-- How far (down, right) a command moves the cursor, by the meaning terminfo(5) gives it. -/
def shift : Out → Int × Int
  | .cap .cursorUp [] => (-1, 0)
  | .cap .parmUp [n] => (-n, 0)
  | .cap .parmDown [n] => (n, 0)
  | .cap .cursorLeft [] => (0, -1)
  | .cap .parmLeft [n] => (0, -n)
  | .cap .cursorRight [] => (0, 1)
  | .cap .parmRight [n] => (0, n)
  | _ => (0, 0)

/-- Directions of relative movement. -/
inductive Dir
  | up | down | left | right

/-- Unit vector (down, right). -/
def Dir.vec : Dir → Int × Int
  | .up => (-1, 0) | .down => (1, 0) | .left => (0, -1) | .right => (0, 1)

/-- The call that moves in a direction. -/
def Dir.op : Dir → Nat → WOp
  | .up => .moveUp | .down => .moveDown | .left => .moveLeft | .right => .moveRight

/-- The capability a move of `n` needs. -/
def Dir.needs : Dir → Nat → Cap
  | .up, n => if n = 1 then .cursorUp else .parmUp
  | .down, _ => .parmDown
  | .left, n => if n = 1 then .cursorLeft else .parmLeft
  | .right, n => if n = 1 then .cursorRight else .parmRight

/-- A database in which every capability is present; used in examples. The bytes name the
capability and its parameters. -/
def demoDB : WEnv where
  db c := some fun ps =>
    (27 :: (match c with
      | .exitAttributeMode => 48 | .enterBold => 49 | .enterReverse => 55 | .setAForeground => 51
      | .parmUp => 65 | _ => 63) :: ps.map (fun n => UInt8.ofNat n), true)
  grow old len := max (2 * old) len

/-- A database with no capability. -/
def bareDB : WEnv where
  db _ := none
  grow old len := max (2 * old) len

end Mortal.Spec
