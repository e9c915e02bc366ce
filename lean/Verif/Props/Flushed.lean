import Verif.Lemmas.Flushed
import Verif.Props.ScreenSession

/-! # C24: calls that take the write lock themselves leave no output behind -/

namespace Mortal
open Spec

/-- **C24.** The calls on a terminal that take the write lock for themselves, including those a read
makes when a signal arrives, pass on all they wrote before they return, whether they succeed or fail:
if nothing was held back before a history of such calls, nothing is held back after it. -/
theorem C24_calls_flush (env : REnv) (ops : List UOp) (hops : ∀ w, .write w ∉ ops)
    (st st' : List PrepareState) (s s' : US) (rs : List URet)
    (h : runU env ops st s = some (rs, st', s')) (ht : TakesAll s.w.os) (hp : s.w.pending = []) :
    s'.w.pending = [] :=
  (flushed_runU ops hops h ht).2 hp

/-- **C24.** The same of a screen: once it is open, after each history of calls, failing or not, and
after its drop. -/
theorem C24_screen_flush (u : UEnv) (env : REnv) (cfg : PrepareConfig) (s0 : US)
    (ht : TakesAll s0.w.os) (hp : s0.w.pending = []) :
    (∀ e s1, screenNew env cfg s0 = .err e s1 → s1.w.pending = []) ∧
    ∀ scr s1, screenNew env cfg s0 = .ok scr s1 → s1.w.pending = [] ∧
      ∀ ops rs d s2, runScr u env ops scr.data s1 = some (rs, d, s2) → s2.w.pending = [] ∧
        ∀ s3, screenDrop env scr.state s2 = .ok () s3 → s3.w.pending = [] := by
  have h0 := flushedK_screenNew env cfg s0
  refine ⟨fun e s1 h => ?_, fun scr s1 h => ?_⟩
  · rw [h] at h0
    exact (h0 ht).2 hp
  · rw [h] at h0
    refine ⟨(h0 ht).2 hp, fun ops rs d s2 h2 => ?_⟩
    have h2 := flushed_runScr ops h2 (h0 ht).1
    refine ⟨h2.2 ((h0 ht).2 hp), fun s3 h3 => ?_⟩
    have h4 := flushedK_screenDrop env scr.state s2
    rw [h3] at h4
    exact (h4 h2.1).2 (h2.2 ((h0 ht).2 hp))

/-- A terminal whose sequence for keypad mode cannot be expanded. -/
def noKeypad : REnv :=
  { demoEnvR with w := { demoEnvR.w with
      db := fun c => if c = .keypadXmit then some fun _ => ([], false) else demoEnvR.w.db c } }

/-- C24: on such a terminal `prepare` turns the mouse on and then fails. It returns an error, the
device has received the sequences for the mouse, and nothing is held back. -/
example : (easyUS 40).w.pending = [] ∧ TakesAll (easyUS 40).w.os ∧
    (runU noKeypad [.prepare demoCfg] [] (easyUS 40)).any (fun x => decide
      (x.1 ≠ [.unit] ∧ (easyUS 40).w.dev = [] ∧ x.2.2.w.dev ≠ [] ∧ x.2.2.w.pending = [])) = true := by
  refine ⟨rfl, ?_, by decide +kernel⟩
  intro r hr
  exact Or.inl (List.eq_of_mem_replicate hr)

/-- C24: a whole session of a screen meets the hypotheses, and the device receives something. -/
example : (smallUS 60).w.pending = [] ∧ TakesAll (smallUS 60).w.os ∧
    (wholeSession demoEnvR demoCfg [.draw (.writeAt ⟨0, 0⟩ ['a', 'b']), .refresh, .setCursorMode .invisible]
      id (smallUS 60)).any (fun x => decide (x.1.w.dev ≠ [] ∧ x.1.w.pending = [] ∧ x.2.w.pending = [])) := by
  refine ⟨rfl, ?_, by decide +kernel⟩
  intro r hr
  exact Or.inl (List.eq_of_mem_replicate hr)

end Mortal
