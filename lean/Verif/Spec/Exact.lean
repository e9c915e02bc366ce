import Verif.Spec.Buffer
import Verif.Spec.Prepare
import Verif.Spec.Timeout

/-! # What happens instead, where the properties fail (C16, C34) -/

namespace Mortal.Spec

/-- The attributes after a call. A styled write that is cut off leaves its own; one positioned
outside the screen has no effect. -/
def attrsCut (env : UEnv) (b : Buf) (a : Option Color × Option Color × Style) : BufOp →
    Option Color × Option Color × Style
  | .writeStyled fg bg st s =>
    if (b.writeStyled env fg bg st s).any (fun x => decide (x.2 = .oob)) then (fg, bg, st)
    else (none, none, 0#8)
  | .writeStyledAt pos fg bg st s =>
    if pos.line < b.size.lines ∧ pos.column < b.size.columns then
      if (b.writeStyledAt env pos fg bg st s).any (fun x => decide (x.2 = .oob)) then (fg, bg, st)
      else (none, none, 0#8)
    else a
  | op => attrsAfter a op

/-- The attributes after a history of calls. -/
def attrsThrough (env : UEnv) : Buf → List BufOp → Option Color × Option Color × Style →
    Option Color × Option Color × Style
  | _, [], a => a
  | b, op :: ops, a =>
    match op.run env b with
    | some b' => attrsThrough env b' ops (attrsCut env b a op)
    | none => a

/-- The device modes a configuration uses are off, the others as they were. -/
def usedOff (env : REnv) (cfg : PrepareConfig) (d : DevModes) : DevModes where
  keypad := d.keypad && !(cfg.enableKeypad && (env.w.db .keypadXmit).isSome)
  mouse := d.mouse && !(cfg.enableMouse && env.xterm)
  motion := d.motion && !(cfg.enableMouse && env.xterm)

end Mortal.Spec
