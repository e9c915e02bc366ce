import Verif.Model.WinSeveral
import Verif.Spec.WinSignal
import Verif.Spec.WinMode

/-! # Programs with several terminals on Windows (C80) -/

namespace Mortal.Spec

/-- Calls on terminals one after the other, whether they succeed or fail: what is seen, each with the
terminal whose call it belongs to, and the process at the end. No result if a call does not return. -/
def sessionW : List (Nat × SigOp) → WProc → Option (List (Nat × Note) × WProc)
  | [], p => some ([], p)
  | (i, op) :: l, p =>
    match op.run (p.term i).t (p.view i) with
    | .ok r s => (sessionW l (p.put i s)).map fun (n, q) =>
        ((between (p.view i) s ++ reportOf r).map (Prod.mk i) ++ n, q)
    | .err _ s => (sessionW l (p.put i s)).map fun (n, q) =>
        ((between (p.view i) s).map (Prod.mk i) ++ n, q)
    | .stop _ => none

/-- Calls of `prepare` and `restore` on terminals; `restore` is for the `k`-th latest `prepare` not
yet restored. -/
inductive UseW
  | prepare (i : Nat) (cfg : PrepareConfig)
  | restore (k : Nat)

/-- A `prepare` not yet restored: on which terminal, for what, and what it has returned. -/
structure HeldW where
  term : Nat
  cfg : PrepareConfig
  st : WinPrepared

/-- A sequence of such calls, all of which succeed; no result otherwise. -/
def runUsesW : List UseW → List HeldW → WProc → Option (List HeldW × WProc)
  | [], held, p => some (held, p)
  | .prepare i cfg :: l, held, p =>
    match winPrepare (p.term i).t cfg (p.view i) with
    | .ok st s => runUsesW l (⟨i, cfg, st⟩ :: held) (p.put i s)
    | _ => none
  | .restore k :: l, held, p =>
    match held[k]? with
    | none => none
    | some h =>
      match winRestore (p.term h.term).t h.st (p.view h.term) with
      | .ok _ s => runUsesW l (held.eraseIdx k) (p.put h.term s)
      | _ => none

/-- Uses so that what is prepared last, on whichever terminal, is restored first. -/
inductive NestedW : List UseW → Prop
  | nil : NestedW []
  | wrap (i : Nat) (cfg : PrepareConfig) {a b : List UseW} : NestedW a → NestedW b →
      NestedW (.prepare i cfg :: (a ++ .restore 0 :: b))

/-- How many uses have asked for signals. -/
def asking (held : List HeldW) : Nat := (held.filter fun h => decide (AsksCtrl h.cfg)).length

/-- Two processes that differ at most in terminals other than those of `J`. -/
structure SameForW (J : Nat → Prop) (p q : WProc) : Prop where
  catchSet : p.catchSet = q.catchSet
  last : p.last = q.last
  os : p.os = q.os
  log : p.log = q.log
  term : ∀ i, J i → p.term i = q.term i

end Mortal.Spec
