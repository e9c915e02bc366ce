import Verif.Model.Writer

/-! # Sending a block of bytes with `write(2)` (C23)

What a device gets to see when a block is sent by a program that offers the whole block at every
call and stops when the answers add up to its length. Written from the answers only. -/

namespace Mortal.Spec

/-- The bytes a call takes, being offered `buf`. -/
def takenOf (buf : Bytes) : WriteRes → Bytes
  | .all => buf
  | .wrote n => buf.take n
  | .eintr => []
  | .fail => []

/-- The bytes some calls take, one after the other. -/
def takenBy (buf : Bytes) (answers : List WriteRes) : Bytes := answers.flatMap (takenOf buf)

/-- An answer that ends the sending with an error. -/
def stopsWith : WriteRes → Option IoErr
  | .fail => some .os
  | .wrote 0 => some .writeZero
  | _ => none

/-- The answers `used` do not end the sending of `buf`: none is an error and at no time before all
of them are used do they add up to the length. -/
structure GoesOn (buf : Bytes) (used : List WriteRes) : Prop where
  noErr : ∀ r ∈ used, stopsWith r = none
  early : ∀ k, k < used.length → (takenBy buf (used.take k)).length ≠ buf.length

end Mortal.Spec
