import Verif.Model.SignalSet

/-! # What a set of signals is, independently of the bit representation -/

namespace Mortal.Spec

/-- Programs over the `SignalSet` API: every way the public API can build a set. -/
inductive SigExpr
  | new | all
  | ofSignal (s : Signal)
  | orSignals (a b : Signal)
  | notSignal (a : Signal)
  | collect (l : List Signal)
  | insert (e : SigExpr) (s : Signal)
  | remove (e : SigExpr) (s : Signal)
  | set (e : SigExpr) (s : Signal) (b : Bool)
  | extend (e : SigExpr) (l : List Signal)
  | union (a b : SigExpr)
  | inter (a b : SigExpr)
  | symm (a b : SigExpr)
  | diff (a b : SigExpr)
  | inverse (a : SigExpr)

/-- The mathematical set denoted by a program (membership predicate). -/
def SigExpr.mem : SigExpr → Signal → Prop
  | .new, _ => False
  | .all, _ => True
  | .ofSignal s, x => x = s
  | .orSignals a b, x => x = a ∨ x = b
  | .notSignal a, x => x ≠ a
  | .collect l, x => x ∈ l
  | .insert e s, x => x = s ∨ e.mem x
  | .remove e s, x => e.mem x ∧ x ≠ s
  | .set e s b, x => if x = s then b = true else e.mem x
  | .extend e l, x => x ∈ l ∨ e.mem x
  | .union a b, x => a.mem x ∨ b.mem x
  | .inter a b, x => a.mem x ∧ b.mem x
  | .symm a b, x => (a.mem x ∧ ¬ b.mem x) ∨ (b.mem x ∧ ¬ a.mem x)
  | .diff a b, x => a.mem x ∧ ¬ b.mem x
  | .inverse a, x => ¬ a.mem x

/-- Running the program with the crate's operations. -/
def SigExpr.run : SigExpr → SignalSet
  | .new => .new
  | .all => .all
  | .ofSignal s => .ofSignal s
  | .orSignals a b => .orSignals a b
  | .notSignal a => .notSignal a
  | .collect l => .fromList l
  | .insert e s => e.run.insert s
  | .remove e s => e.run.remove s
  | .set e s b => e.run.set s b
  | .extend e l => e.run.extend l
  | .union a b => a.run.union b.run
  | .inter a b => a.run.intersection b.run
  | .symm a b => a.run.symmetricDifference b.run
  | .diff a b => a.run.difference b.run
  | .inverse a => a.run.inverse

/-- Names as printed in the documentation (`src/signal.rs:9-26`), in declaration order. -/
def declared : List (Signal × List Char) :=
  [(.break, "Break".toList), (.continue, "Continue".toList), (.interrupt, "Interrupt".toList),
   (.resize, "Resize".toList), (.suspend, "Suspend".toList), (.quit, "Quit".toList)]

/-- Names joined by ` | ` between `SignalSet(` and `)`. -/
def render (names : List (List Char)) : List Char :=
  "SignalSet(".toList ++ List.intercalate " | ".toList names ++ ")".toList

end Mortal.Spec
