import Verif.Spec.Locks
import Verif.Spec.Direct

/-! # Sessions of several threads, one after another (C60)

A session is what happens between taking the terminal's write lock and releasing it. -/

namespace Mortal.Spec

/-- The threads that took the write lock, in the order in which they did. -/
def takers {σ : Type} : List (Nat × Label σ) → List Nat
  | [] => []
  | (t, .acq .writer) :: tr => t :: takers tr
  | _ :: tr => takers tr

/-- Sessions one after another: whose they are and what is done. -/
def inTurn {α : Type} (ss : List (Nat × List α)) : List (Nat × α) :=
  ss.flatMap fun x => x.2.map fun a => (x.1, a)

end Mortal.Spec
