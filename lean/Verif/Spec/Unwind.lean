import Verif.Spec.Locks
import Verif.Model.Unwind

/-! # Panics and what they leave behind (C64) -/

namespace Mortal.Spec

/-- Who holds the lock `l` after an execution: the thread that took it last, if it has not released it
since. -/
def holderOf {σ : Type} (l : LockId) (tr : List (Nat × Label σ)) : Option Nat :=
  tr.foldl (fun h x =>
    match x.2 with
    | .acq i => if i = l then some x.1 else h
    | .rel i => if i = l then none else h
    | _ => h) none

/-- In the course of the execution some thread panicked while it held the lock `l`. -/
def PanickedHolding {σ : Type} (l : LockId) (tr : List (Nat × Label σ)) : Prop :=
  ∃ a t b, tr = a ++ (t, .crash) :: b ∧ holderOf l a = some t

/-- The drop of a screen that ended like this has not come to its end: it panicked or took the process
down. The state then. -/
def broken {σ α : Type} : PRes σ α → Option σ
  | .panic s => some s.st
  | .abort s => some s.st
  | _ => none

end Mortal.Spec
