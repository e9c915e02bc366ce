import Verif.Spec.Signals

/-! # What becomes of each signal (C31, C32)

A reference: one place for a signal. An arrival puts the signal there, in place of what was there;
a call that looks takes it out. -/

namespace Mortal.Spec

/-- What happens, in order: a handled signal arrives, or a call with that result takes one. -/
inductive SigItem
  | arrive (g : Sig)
  | take (r : URet)

/-- The result of a call that took `g`: it reports it, it fails, or it answers nothing because the
signal is not to be reported (a size change always is). -/
def AnswersSig (g : Sig) (r : URet) : Prop :=
  reportedSig r = some (Sig.signal g) ∨ (∃ e, r = .err e) ∨ (r = .event none ∧ g ≠ .winch)

/-- The signals that arrive. -/
def arrivals : List SigItem → List Sig
  | [] => []
  | .arrive g :: l => g :: arrivals l
  | .take _ :: l => arrivals l

/-- The results of the calls that take a signal. -/
def sigTakes : List SigItem → List URet
  | [] => []
  | .arrive _ :: l => sigTakes l
  | .take r :: l => r :: sigTakes l

/-- The place holds `o` at first and `o'` in the end. -/
def OnePlace : Option Sig → List SigItem → Option Sig → Prop
  | o, [], o' => o' = o
  | _, .arrive g :: l, o' => OnePlace (some g) l o'
  | o, .take r :: l, o' => ∃ g, o = some g ∧ AnswersSig g r ∧ OnePlace none l o'

end Mortal.Spec
