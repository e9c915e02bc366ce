import Verif.Lemmas.WinRefused
import Verif.Props.DirectWin
import Verif.Props.WinShow

/-!
# C51, C56, C58: errors on a Windows console

The methods return an error when the console refuses a call, and only then.
-/

namespace Mortal
open Spec

/-- C58. A method that writes to a Windows console returns `Ok` only if the console refused none of
the calls it made; it returns an error only if the console refused a call, and this was the last it
made and the only one refused. -/
theorem C58_call_error (t : WTerm) (op : TOp) (s s' : WinSt) :
    (∀ a, op.win t s = .ok a s' → ∃ D, s'.log = s.log ++ D ∧ ∀ ev ∈ D, refused ev = false) ∧
      (∀ e, op.win t s = .err e s' → ∃ D c, s'.log = s.log ++ (D ++ [c]) ∧
        (∀ ev ∈ D, refused ev = false) ∧ refused c = true) := by
  refine ⟨fun a h => ?_, fun e h => ?_⟩
  · obtain ⟨D, h1, h2⟩ := (honest_win t op s).1 a s' h
    exact ⟨D, h1, fun ev hev => by simpa using List.countP_eq_zero.mp h2 ev hev⟩
  · obtain ⟨D, c, h1, h2, h3⟩ := (honest_win t op s).2 e s' h
    exact ⟨D, c, h1, fun ev hev => by simpa using List.countP_eq_zero.mp h2 ev hev, h3⟩

/-- C58. However many methods are called, carrying on after errors: as many return an error as the
console refused calls. No refusal is swallowed, none is reported twice, and nothing else is an
error. -/
theorem C58_errors (t : WTerm) (ops : List TOp) (s s' : WinSt) (tr : List (TOp × Bool)) (D : List WEv)
    (hrun : traceWin t ops s = some (tr, s')) (hlog : s'.log = s.log ++ D) :
    tr.countP returnedErr = D.countP refused := by
  obtain ⟨D', h1, h2⟩ := trace_honest t ops s s' tr hrun
  rw [h1, List.append_cancel_left_eq] at hlog
  rw [← hlog, h2]

/-- C56 on Windows. A method of a screen's guard (drawing, `refresh`, the cursor mode) returns `Ok` only
if the console refused none of the calls it made; it returns an error only if the console refused a
call, and this was the last it made and the only one refused. -/
theorem C56_win_call_error (u : UEnv) (t : WTerm) (op : GOp) (x x' : WScr) :
    (∀ a, wsCall u t op x = .ok a x' → ∃ D, x'.w.log = x.w.log ++ D ∧ ∀ ev ∈ D, refused ev = false) ∧
      (∀ e, wsCall u t op x = .err e x' → ∃ D c, x'.w.log = x.w.log ++ (D ++ [c]) ∧
        (∀ ev ∈ D, refused ev = false) ∧ refused c = true) := by
  refine ⟨fun a h => ?_, fun e h => ?_⟩
  · obtain ⟨D, h1, h2⟩ := (shonest_call u t op x).1 a x' h
    exact ⟨D, h1, fun ev hev => by simpa using List.countP_eq_zero.mp h2 ev hev⟩
  · obtain ⟨D, c, h1, h2, h3⟩ := (shonest_call u t op x).2 e x' h
    exact ⟨D, c, h1, fun ev hev => by simpa using List.countP_eq_zero.mp h2 ev hev, h3⟩

/-- C51. The same of all calls that read, wait, prepare or restore: an error means that the console
refused a call, the last that was made; signals that arrive meanwhile never make a call fail. -/
theorem C51_call_error (t : WTerm) (op : SigOp) (s s' : WinSt) :
    (∀ a, op.run t s = .ok a s' → ∃ D, s'.log = s.log ++ D ∧ ∀ ev ∈ D, refused ev = false) ∧
      (∀ e, op.run t s = .err e s' → ∃ D c, s'.log = s.log ++ (D ++ [c]) ∧
        (∀ ev ∈ D, refused ev = false) ∧ refused c = true) := by
  refine ⟨fun a h => ?_, fun e h => ?_⟩
  · obtain ⟨D, h1, h2⟩ := (honest_sigOp t op s).1 a s' h
    exact ⟨D, h1, fun ev hev => by simpa using List.countP_eq_zero.mp h2 ev hev⟩
  · obtain ⟨D, c, h1, h2, h3⟩ := (honest_sigOp t op s).2 e s' h
    exact ⟨D, c, h1, fun ev hev => by simpa using List.countP_eq_zero.mp h2 ev hev, h3⟩

/-! ## Examples -/

/-- The answers in the example: the console refuses to set a colour, to write, and to say where the
cursor is. -/
def refusedAnswers : List ConStep :=
  [⟨[], .fail⟩, ⟨[.input .other], .ok⟩, ⟨[], .wrote 1⟩, ⟨[], .fail⟩, ⟨[], .ok⟩, ⟨[], .wrote 1⟩,
   ⟨[], .ok⟩, ⟨[], .fail⟩, ⟨[], .info (pageInfo 0 3 7)⟩, ⟨[], .ok⟩, ⟨[], .ok⟩, ⟨[], .ok⟩]

/-- Non-trivial case: three of eight calls return an error, and three calls of the console were
refused. -/
example : ((traceWin demoTerm winCalls (demoSt refusedAnswers)).map fun x =>
      (x.1.map Prod.snd, x.2.log.countP refused)) =
    some ([false, true, false, true, false, true, true, true], 3) := by decide +kernel

example {tr : List (TOp × Bool)} {s' : WinSt}
    (h : traceWin demoTerm winCalls (demoSt refusedAnswers) = some (tr, s')) :
    tr.countP returnedErr = s'.log.countP refused :=
  C58_errors demoTerm winCalls (demoSt refusedAnswers) s' tr s'.log h rfl

/-- A refresh of a screen that writes two letters; the second is refused. `C56_win_call_error`
applies: the refusal is the last of its calls. -/
example :
    let x := (showOpen [⟨[], .wrote 1⟩, ⟨[], .fail⟩, ⟨[], .ok⟩]).s
    let b := (runOps demoEnv [.writeAt ⟨0, 0⟩ ['a', 'b']] x.buf).getD x.buf
    (match wsCall demoEnv demoTerm .refresh { x with buf := b } with
    | .err _ y => decide ((y.w.log.drop x.w.log.length).map refused = [false, true])
    | _ => false) = true := by decide +kernel

/-- `C51_call_error`: Ctrl-C arrives during a wait, and is not handled; then the console refuses to
read. -/
example :
    (match (SigOp.readEvent none).run demoTerm
      (demoSt [⟨[], .ok⟩, ⟨[.ctrl 0 false], .ok⟩, ⟨[], .ok⟩, ⟨[], .fail⟩]) with
    | .err _ y => decide (y.log.map refused = [false, false, false, false, true])
    | _ => false) = true := by decide +kernel

end Mortal
