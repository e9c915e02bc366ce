import Verif.Spec.Direct

/-! # Specification: calls that a Windows console refuses -/

namespace Mortal.Spec

/-- The console refused a call. (An access to an atomic variable is none.) -/
def refused : WEv → Bool
  | .call .atomic _ => false
  | .call _ .fail => true
  | _ => false

/-- A method returned an error. -/
def returnedErr (x : TOp × Bool) : Bool := !x.2

end Mortal.Spec
