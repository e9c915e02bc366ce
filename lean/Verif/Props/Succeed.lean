import Verif.Lemmas.Succeed
import Verif.Props.Direct

/-!
# C57: calls that cannot fail

On a terminal that has all capabilities, whose output is accepted, no method returns an error.
-/

namespace Mortal
open Spec

/-- C57. On a terminal that has all capabilities, all of which can be expanded, and whose system takes
all output, perhaps after interruptions, no call fails, whatever was called before. -/
theorem C57_calls_succeed (env : WEnv) (h : AllCaps env) (ops : List TOp) (os : List WriteRes)
    (hos : TakesAll os) (tr : List (TOp × Bool)) (s : WS)
    (hrun : traceT env ops (WS.new os) = some (tr, s)) : ∀ x ∈ tr, x.2 = true := by
  have go : ∀ (ops : List TOp) (w : WS) (tr : List (TOp × Bool)) (s : WS), InStep w → TakesAll w.os →
      traceT env ops w = some (tr, s) → ∀ x ∈ tr, x.2 = true := by
    intro ops
    induction ops with
    | nil =>
      intro w tr s _ _ hr
      simp only [traceT, Option.some.injEq, Prod.mk.injEq] at hr
      rw [← hr.1]
      intro x hx; cases hx
    | cons op ops ih =>
      intro w tr s hi ht hr
      simp only [traceT] at hr
      cases ho : op.unix.run env w with
      | stop x => rw [ho] at hr; cases hr
      | err e x => exact absurd ho (call_succeeds h _ hi ht _ _)
      | ok x =>
        rw [ho] at hr
        simp only [Option.map_eq_some_iff, Prod.mk.injEq] at hr
        obtain ⟨⟨tr1, s1⟩, h1, rfl, rfl⟩ := hr
        have := ih x tr1 s1 (inStep_run h.full hi (by rw [ho]; rfl))
          (inv_run (takes_inv env) _ w ht x (by rw [ho]; rfl)) h1
        intro y hy
        rcases List.mem_cons.mp hy with rfl | hy
        · rfl
        · exact this y hy
  have e0 : (WS.new os).theme = plainTheme := rfl
  have h0 : InStep (WS.new os) := by
    unfold InStep
    rw [e0]
    rfl
  exact go ops (WS.new os) tr s h0 hos hrun

/-- Non-trivial case: the demonstration database has all capabilities; text,
styled text, erasing and moves, with an interrupted write. -/
example : AllCaps demoDB ∧ TakesAll [.eintr, .all, .all] ∧
    ((traceT demoDB [.fg (some .red), .write ['世', 'a'], .styled ⟨none, some .blue, .BOLD⟩ ['b'], .flush,
        .moveTo ⟨3, 4⟩, .move .left 2, .clearToLineEnd, .cursorMode .invisible, .release]
      (WS.new [.eintr, .all, .all])).map fun x => (x.1.length, x.1.all Prod.snd)) = some (9, true) :=
  ⟨fun _ => ⟨_, rfl, fun _ => rfl⟩, by unfold TakesAll; decide, by decide +kernel⟩

end Mortal
