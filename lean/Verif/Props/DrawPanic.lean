import Verif.Lemmas.DrawPanic
import Verif.Props.Screen

/-!
# When drawing panics (C10)
-/

namespace Mortal
open Spec

/-- C10, exactly. With Unicode tables as on a real system, a history of calls on a new screen, with any
changes of its size, panics if and only if it comes to a call that asks for a line beyond the `usize`
range, or that writes a two-column character on the last but one line of a screen of one column. -/
theorem C10_panics_iff (u : UEnv) (hu : TableOk u) (s0 : Size) (hs0 : GoodSize s0) (ops : List BufOp)
    (hres : ∀ s, .resize s ∈ ops → GoodSize s) :
    runOps u ops (Buf.new s0) = none ↔
      ∃ pre op post b, ops = pre ++ op :: post ∧ runOps u pre (Buf.new s0) = some b ∧ Breaks u b op :=
  (runOps_panics hu ops _ (new_inv hs0) hres).1

/-- C10. Whatever was drawn without a panic, the grid is sound. -/
theorem C10_sound (u : UEnv) (hu : TableOk u) (s0 : Size) (hs0 : GoodSize s0) (ops : List BufOp)
    (hres : ∀ s, .resize s ∈ ops → GoodSize s) (b : Buf)
    (hrun : runOps u ops (Buf.new s0) = some b) : GridOk b :=
  (runOps_panics hu ops _ (new_inv hs0) hres).2 b hrun

/-- Both kinds of panic occur, after other calls, and a history with neither does not panic. -/
example : TableOk demoEnv ∧ GoodSize ⟨3, 1⟩ ∧
    runOps demoEnv [.resize ⟨3, 1⟩, .writeStr ['a'], .writeChar '世'] (Buf.new ⟨4, 2⟩) = none ∧
    runOps demoEnv [.setCursor ⟨usizeMax - 1, 0⟩, .writeStr ['\n'], .nextLine 3] (Buf.new ⟨4, 2⟩) = none ∧
    (runOps demoEnv [.resize ⟨3, 1⟩, .writeStr ['a', 'b'], .writeChar '世'] (Buf.new ⟨4, 2⟩)).isSome :=
  ⟨demo_table, by decide, by decide +kernel, by decide +kernel, by decide +kernel⟩

end Mortal
