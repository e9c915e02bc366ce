import Verif.Model.Fds

/-! # Who owns which file (C66) -/

namespace Mortal.Spec

/-- What a terminal reads from and writes to: a file that belongs to it, or two it has borrowed. -/
inductive TermFile
  | own (file : Nat)
  | borrowed (src dst : Nat)
deriving DecidableEq, Repr

/-- What a program has: descriptors with the files it opened itself, its terminals (`none`: dropped), and
files nobody will ever close. -/
structure Holdings where
  files : List (Nat × Nat)
  terms : List (Option TermFile)
  lost : List Nat
  opened : Nat

/-- What a terminal's file becomes when the terminal is dropped: it is closed, if it is the terminal's
own; if the drop panics, it is lost. -/
def Holdings.gone (h : Holdings) (i : Nat) (panics : Bool) : Holdings :=
  match h.terms[i]? with
  | some (some (.own f)) =>
    { h with terms := h.terms.set i none, lost := if panics then f :: h.lost else h.lost }
  | some (some (.borrowed _ _)) => { h with terms := h.terms.set i none }
  | _ => h

/-- What the calls should do. `std n`: the file that is standard input (0), output (1), error (2). -/
def Holdings.after (std : Nat → Nat) (h : Holdings) : FdOp → Holdings
  | .openT none _ => h
  | .openT (some _) false => { h with opened := h.opened + 1 }
  | .openT (some _) true => { h with terms := h.terms ++ [some (.own h.opened)], opened := h.opened + 1 }
  | .stdoutT false | .stderrT false => h
  | .stdoutT true => { h with terms := h.terms ++ [some (.borrowed (std 0) (std 1))] }
  | .stderrT true => { h with terms := h.terms ++ [some (.borrowed (std 0) (std 2))] }
  | .dropT i panics => h.gone i panics
  | .newScreen _ .ok => h
  | .newScreen i _ => h.gone i false
  | .readT _ | .writeT _ => h
  | .openF fd => { h with files := (fd, h.opened) :: h.files, opened := h.opened + 1 }
  | .closeF fd => { h with files := h.files.filter fun x => x.1 ≠ fd }

/-- The file a call should read from or write to. -/
def Holdings.touches (h : Holdings) : FdOp → Option (Option Nat)
  | .readT i =>
    match h.terms[i]? with
    | some (some (.own f)) => some (some f)
    | some (some (.borrowed a _)) => some (some a)
    | _ => none
  | .writeT i =>
    match h.terms[i]? with
    | some (some (.own f)) => some (some f)
    | some (some (.borrowed _ b)) => some (some b)
    | _ => none
  | _ => none

/-- The same for a program. -/
def Holdings.run (std : Nat → Nat) : List FdOp → Holdings → Holdings × List (Option (Option Nat))
  | [], h => (h, [])
  | o :: ops, h =>
    let r := Holdings.run std ops (h.after std o)
    (r.1, h.touches o :: r.2)

/-- A file is open on behalf of the program or of one of its terminals. -/
def Holdings.Has (h : Holdings) (f : Nat) : Prop :=
  (∃ fd, (fd, f) ∈ h.files) ∨ some (.own f) ∈ h.terms ∨ f ∈ h.lost

/-- The system opens files as descriptors that are not in use; the program closes only what it opened
itself. -/
def Lawful (s : FdSt) (h : Holdings) : FdOp → Prop
  | .openT (some fd) _ => s.tab fd = none
  | .openF fd => s.tab fd = none
  | .closeF fd => ∃ f, (fd, f) ∈ h.files
  | _ => True

/-- Every step of the program is lawful. -/
def AllLawful (std : Nat → Nat) : List FdOp → FdSt → Holdings → Prop
  | [], _, _ => True
  | o :: ops, s, h => Lawful s h o ∧ AllLawful std ops (o.run s).1 (h.after std o)

/-- A process at its start: descriptors it has inherited, among them the three standard ones; the files
are numbered below `n`. -/
def Starts (std : Nat → Nat) (inherited : Nat → Option Nat) (n : Nat) : Prop :=
  (∀ i, i < 3 → inherited i = some (std i)) ∧ ∀ i f, inherited i = some f → f < n

/-- The process at its start. -/
def fdStart (inherited : Nat → Option Nat) (n : Nat) : FdSt := { tab := inherited, next := n, terms := [] }

/-- What the program has at its start. -/
def noHoldings (n : Nat) : Holdings := { files := [], terms := [], lost := [], opened := n }

/-- No terminal is dropped whose write lock is poisoned. -/
def NoPoisonedDrop (ops : List FdOp) : Prop := ∀ i, .dropT i true ∉ ops

end Mortal.Spec
