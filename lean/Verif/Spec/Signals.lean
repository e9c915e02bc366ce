import Verif.Spec.Unix

/-! # Signals: what is delivered, pending and reported (C31–C33) -/

namespace Mortal.Spec

/-- The crate's name for a signal. -/
def Sig.signal : Sig → Signal
  | .cont => .continue | .winch => .resize | .int => .interrupt | .tstp => .suspend | .quit => .quit

/-- The signal waiting to be picked up, if any. -/
def pendingSig (s : US) : Option Sig :=
  [Sig.cont, .winch, .int, .tstp, .quit].find? fun g => g.num = s.last

/-- Of the signals that arrive, those the crate's handler is installed for. -/
def handled (t : SigTab) (l : List Sig) : List Sig := l.filter fun g => t.get g = .ours

/-- The last signal of `new`, or else the one that was pending. -/
def latest (new : List Sig) (old : Option Sig) : Option Sig := new.getLast?.or old

/-- The signal a result reports. A size change stands for the resize signal. -/
def reportedSig : URet → Option Signal
  | .event (some (.signal g)) => some g
  | .event (some (.resize _)) => some .resize
  | _ => none

/-- A `select` that is interrupted, by signals that are not handled, and the check after it. -/
def QuietRound (t : SigTab) (r : Step × Step) : Prop :=
  handled t r.1.before = [] ∧ handled t r.2.before = [] ∧
    ∃ d e, r.1.res = .eintr d e ∧ handled t d = []

/-- The two steps of each round. -/
def roundSteps (l : List (Step × Step)) : List Step := l.flatMap fun r => [r.1, r.2]

end Mortal.Spec
