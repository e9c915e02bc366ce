import Verif.Spec.Live
import Verif.Spec.WinStale
import Verif.Spec.Direct

/-! # The same picture on a Unix terminal and on a Windows console -/

namespace Mortal.Spec
open Mortal

/-- The components of an ANSI colour number: bit 0 is red, bit 1 green, bit 2 blue. -/
def ansiRGB (n : Nat) : Bool × Bool × Bool := (n.testBit 0, n.testBit 1, n.testBit 2)

/-- How a console cell looks that has the attributes `d` of a terminal cell. A console has no default
colour of its own, so the default word of the console stands in; bold is shown as bright; there is
neither italic nor underline. -/
def sameLook (default : BitVec 16) (d : DevAttrs) : Look :=
  let f := (d.fg.map ansiRGB).getD (lookOf default).fg
  let b := (d.bg.map ansiRGB).getD (lookOf default).bg
  { fg := if d.reverse then b else f, bg := if d.reverse then f else b,
    bright := (lookOf default).bright || d.bold, rest := (lookOf default).rest }

/-- The console buffer shows the same picture as the terminal: the same characters in the same places,
each with the same attributes as far as the console has them; both halves of a two-column character
look the same. -/
structure SamePicture (default : BitVec 16) (t : Term) (o : OutBuf) : Prop where
  size : o.glyph.size = t.size
  cell : ∀ p, InBounds p t.size → o.glyph.cell p = (t.cell p).map fun _ => ()
  narrow : ∀ p x d, InBounds p t.size → t.cell p = .narrow x d →
    lookOf (o.attr p) = sameLook default d
  wide : ∀ p x d, InBounds p t.size → t.cell p = .left x d →
    lookOf (o.attr p) = sameLook default d ∧
    (InBounds ⟨p.line, p.column + 1⟩ t.size →
      lookOf (o.attr ⟨p.line, p.column + 1⟩) = sameLook default d)

/-- A step without what the terminal happens to show after a change of its size. -/
def SStep.bare : SStep → SStep
  | .resized z _ _ => .resized z (fun _ => .narrow [' '] .plain) none
  | st => st

end Mortal.Spec
