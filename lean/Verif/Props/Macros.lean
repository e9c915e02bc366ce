import Verif.Lemmas.MacrosApi
import Verif.Spec.Writer
import Verif.Spec.Screen
import Verif.Lemmas.Prepare

/-!
# C42: `term_write!` and `term_writeln!`
-/

namespace Mortal
open Spec

/-- C42. `term_write!` accepts exactly the documented elements: with at least one, each documented,
it expands, and to the calls the documentation gives, in their order; else it does not compile. -/
theorem C42_expands (es : List Elem) (cs : List MCall) :
    ((termWrite es).map MExpr.calls = some cs ↔ es ≠ [] ∧ Stands es cs) := by
  constructor
  · intro h
    obtain ⟨m, h1, rfl⟩ := Option.map_eq_some_iff.mp h
    cases es with
    | nil => cases h1
    | cons e es =>
      obtain ⟨cs, h2, rfl⟩ := (mainRule_iff _ _ _).mp h1
      rw [calls_foldl]
      exact ⟨by simp, h2⟩
  · rintro ⟨h1, h2⟩
    cases es with
    | nil => exact absurd rfl h1
    | cons e es =>
      have h3 : termWrite (e :: es) = some (cs.foldl MExpr.chain .init) :=
        (mainRule_iff _ _ _).mpr ⟨cs, h2, rfl⟩
      rw [h3]
      simp [calls_foldl, MExpr.calls]

/-- C42, a `Terminal`, success: the macro's value is `Ok(())` exactly when all elements' calls
succeed in their order, and then the state is what they leave. -/
theorem C42_terminal_ok (env : WEnv) (es : List Elem) (m : MExpr) (cs : List MCall) (s t : WS)
    (h : termWrite es = some m) (hs : Stands es cs) :
    m.evalTerm env s = .ok t ↔ AllOk env cs s t := by
  rw [termWrite_some h hs]
  exact eval_foldl_ok env cs .init s s t rfl

/-- C42, a `Terminal`, failure: the macro's value is an error exactly when it is the error of one of
the calls, all calls before it having succeeded in their order; no call after it is made (the state
is what the failing call leaves). -/
theorem C42_terminal_err (env : WEnv) (es : List Elem) (m : MExpr) (cs : List MCall) (s t : WS)
    (e : IoErr) (h : termWrite es = some m) (hs : Stands es cs) :
    m.evalTerm env s = .err e t ↔
      ∃ done c rest s', cs = done ++ c :: rest ∧ AllOk env done s s' ∧ c.onTerm env s' = .err e t := by
  rw [termWrite_some h hs]
  exact eval_foldl_err_iff env cs .init s s t e rfl

/-- C42, a `Screen`: all elements' calls are made, in their order, on the buffer, and nothing
else. -/
theorem C42_screen (u : UEnv) (es : List Elem) (m : MExpr) (cs : List MCall) (b t : Buf)
    (h : termWrite es = some m) (hs : Stands es cs) :
    m.evalScreen u b = some t ↔ AllDrawn u cs b t := by
  rw [termWrite_some h hs, evalScreen_foldl]
  exact foldlM_drawn u cs b t

/-- C42. `term_writeln!` is `term_write!` with one more call at the end, writing a newline; it
accepts an empty list too. -/
theorem C42_writeln (es : List Elem) (cs : List MCall) :
    ((termWriteln es).map MExpr.calls = some cs ↔
      ∃ cs', Stands es cs' ∧ cs = cs' ++ [.writeStr ['\n']]) := by
  have app : ∀ (es : List Elem) (cs : List MCall), Stands (es ++ [.lit ['\n']]) cs ↔
      ∃ cs', Stands es cs' ∧ cs = cs' ++ [.writeStr ['\n']] := by
    intro es
    induction es with
    | nil =>
      intro cs
      constructor
      · intro h
        cases h with
        | cons h1 h2 => cases h1; cases h2; exact ⟨[], .nil, rfl⟩
      · rintro ⟨cs', h, rfl⟩; cases h; exact .cons .literal .nil
    | cons e es ih =>
      intro cs
      constructor
      · intro h
        cases h with
        | cons h1 h2 =>
          obtain ⟨cs', h3, rfl⟩ := (ih _).mp h2
          exact ⟨_ :: cs', .cons h1 h3, rfl⟩
      · rintro ⟨cs', h, rfl⟩
        cases h with
        | cons h1 h2 => exact .cons h1 ((ih _).mpr ⟨_, h2, rfl⟩)
  unfold termWriteln
  rw [C42_expands, app]
  simp

/-- C42, a `Terminal`: the value of the whole macro call is that of the chain, whether the flush at
the end (the drop of the guard) succeeds or not; the chain's output is flushed even after an
error. -/
theorem C42_terminal_session (env : WEnv) (m : MExpr) (s t : WS) (r : Option IoErr) :
    m.onTerminal env s = some (r, t) ↔
      ∃ s', (m.evalTerm env s = match r with | none => .ok s' | some e => .err e s') ∧
        WOp.sessionEnd.run env s' = .ok t := by
  unfold MExpr.onTerminal
  have hse : ∀ s' : WS, (WOp.sessionEnd.run env s').state = some t ↔
      WOp.sessionEnd.run env s' = .ok t := by
    intro s'
    cases hc : WOp.sessionEnd.run env s' with
    | ok x => simp [Outcome.state]
    | err e x => exact absurd hc (sessionEnd_not_err _ _ _ _)
    | stop w => simp [Outcome.state]
  cases hm : m.evalTerm env s with
  | ok x =>
    constructor
    · intro h
      obtain ⟨y, h1, h2⟩ := Option.map_eq_some_iff.mp h
      cases h2
      exact ⟨x, rfl, (hse _).mp h1⟩
    · rintro ⟨s', h1, h2⟩
      cases r with
      | none => cases h1; exact Option.map_eq_some_iff.mpr ⟨t, (hse _).mpr h2, rfl⟩
      | some e => cases h1
  | err e x =>
    constructor
    · intro h
      obtain ⟨y, h1, h2⟩ := Option.map_eq_some_iff.mp h
      cases h2
      exact ⟨x, rfl, (hse _).mp h1⟩
    · rintro ⟨s', h1, h2⟩
      cases r with
      | none => cases h1
      | some e => cases h1; exact Option.map_eq_some_iff.mpr ⟨t, (hse _).mpr h2, rfl⟩
  | stop w =>
    constructor
    · intro h; cases h
    · rintro ⟨s', h1, h2⟩
      cases r <;> cases h1

/-- **C42.** On a `Terminal`, `term_write!` is a write guard on which the public methods the elements
stand for are called, in their order; it returns `Ok(())` exactly when all of them succeed. (What the
methods show is C63.) -/
theorem C42_is_guard (env : WEnv) (es : List Elem) (m : MExpr) (cs : List MCall) (s t : WS)
    (h : termWrite es = some m) (hs : Stands es cs) :
    m.onTerminal env s = some (none, t) ↔
      runPubUnix env [.guard (cs.map fun c => some (methodOf c))] s =
        some (cs.map fun c => (methodOf c, true), t) := by
  rw [C42_terminal_session, runPub_guard]
  simp only [C42_terminal_ok env es m cs s _ h hs, guardCalls_allOk]

/-- **C42.** It returns an error exactly when one of the methods does; those after it are not called. -/
theorem C42_is_guard_err (env : WEnv) (es : List Elem) (m : MExpr) (cs : List MCall) (s t : WS)
    (h : termWrite es = some m) (hs : Stands es cs) :
    (∃ e, m.onTerminal env s = some (some e, t)) ↔
      ∃ done c rest, cs = done ++ c :: rest ∧
        runPubUnix env [.guard ((done ++ [c]).map fun c => some (methodOf c))] s =
          some (done.map (fun c => (methodOf c, true)) ++ [(methodOf c, false)], t) := by
  simp only [C42_terminal_session, runPub_guard, guardCalls_fails]
  constructor
  · rintro ⟨e, s', h1, h2⟩
    obtain ⟨done, c, rest, s1, rfl, h3, h4⟩ := (C42_terminal_err env es m cs s s' e h hs).mp h1
    exact ⟨done, c, rest, rfl, s', ⟨s1, e, h3, h4⟩, h2⟩
  · rintro ⟨done, c, rest, rfl, s', ⟨s1, e, h3, h4⟩, h2⟩
    exact ⟨e, s', (C42_terminal_err env es m _ s s' e h hs).mpr ⟨done, c, rest, s1, rfl, h3, h4⟩, h2⟩

/-- **C42** on Windows: the same. -/
theorem C42_win (t : WTerm) (es : List Elem) (m : MExpr) (cs : List MCall) (s s' : WinSt)
    (h : termWrite es = some m) (hs : Stands es cs) :
    (m.evalWin t s = .ok () s' ↔
      runPubWin t [.guard (cs.map fun c => some (methodOf c))] s =
        some (cs.map fun c => (methodOf c, true), s')) ∧
    ((∃ e, m.evalWin t s = .err e s') ↔
      ∃ done c rest, cs = done ++ c :: rest ∧
        runPubWin t [.guard ((done ++ [c]).map fun c => some (methodOf c))] s =
          some (done.map (fun c => (methodOf c, true)) ++ [(methodOf c, false)], s')) := by
  have hm : ∀ s, m.evalWin t s = winAll t cs s := fun s => by rw [termWrite_some h hs, evalWin_foldl]; rfl
  have hg : ∀ (ops : List (Option PubOp)) (x : List (PubOp × Bool) × WinSt),
      runPubWin t [.guard ops] s = some x ↔ callsWin (PubOp.guardWin t) ops s = some x := by
    intro ops x
    simp only [runPubWin]
    cases callsWin (PubOp.guardWin t) ops s with
    | none => exact Iff.rfl
    | some y => simp
  refine ⟨?_, ?_⟩
  · rw [hm, winAll_ok, hg]
  · simp only [hm, hg, callsWin_fails, winAll_err]
    constructor
    · rintro ⟨e, done, c, rest, s1, rfl, h1, h2⟩
      exact ⟨done, c, rest, rfl, s1, e, h1, h2⟩
    · rintro ⟨done, c, rest, rfl, s1, e, h1, h2⟩
      exact ⟨e, done, c, rest, s1, rfl, h1, h2⟩

/-- **C42.** On a `Screen`, `term_write!` is a write guard on which the public methods the elements stand
for are called, in their order. It panics exactly when one of them, or the drop of the guard, does. -/
theorem C42_screen_guard (u : UEnv) (env : WEnv) (es : List Elem) (m : MExpr) (cs : List MCall) (s : Scr)
    (h : termWrite es = some m) (hs : Stands es cs) :
    m.onScreenHandle u env s =
      (guardSession u env (cs.map fun c => .draw (SPub.asks (screenMethodOf c))) s).state := by
  have he : m.evalScreen u s.buf = runOps u (cs.map fun c => SPub.asks (screenMethodOf c)) s.buf := by
    rw [termWrite_some h hs, evalScreen_foldl]
    exact foldlM_runOps u cs s.buf
  have hmap : (cs.map fun c => GOp.draw (SPub.asks (screenMethodOf c))) =
      (cs.map fun c => SPub.asks (screenMethodOf c)).map GOp.draw := by simp
  unfold MExpr.onScreenHandle
  rw [he, hmap]
  cases hr : runOps u (cs.map fun c => SPub.asks (screenMethodOf c)) s.buf with
  | none => exact (guardSession_panics u env _ s hr).symm
  | some b => dsimp only; rw [guardSession_draws u env _ s b hr]

/-- Non-trivial case: `[red] "hi" [bold] (: 42) [#blue]` on a terminal without colours for the
background fails at the last element, the ones before having been written; the screen takes all. -/
def demoElems : List Elem :=
  [.bracket [.word .red], .lit ['h', 'i'], .bracket [.word .bold], .paren (.colon ['4', '2'] ['?']),
   .bracket [.hash, .word .blue], .lit ['x']]

example : (termWrite demoElems).map MExpr.calls =
    some [.setFg (some .red), .writeStr ['h', 'i'], .addStyle .BOLD, .writeFmt ['4', '2'],
      .setBg (some .blue), .writeStr ['x']] := by decide

example : Stands demoElems [.setFg (some .red), .writeStr ['h', 'i'], .addStyle .BOLD,
    .writeFmt ['4', '2'], .setBg (some .blue), .writeStr ['x']] :=
  ((C42_expands demoElems _).mp (by decide)).2

/-- A database whose command for the background fails half-way. -/
def halfDB : WEnv where
  db c := if c = .setABackground then some fun _ => ([27, 52], false) else demoDB.db c
  grow := demoDB.grow

example : ((termWrite demoElems).bind fun m => (m.onTerminal halfDB (WS.new [.all]))).map
    (fun p => (p.1, p.2.dev)) =
    some (some .expand, [27, 51, 1, 104, 105, 27, 49, 52, 50, 27, 52]) := by decide +kernel

example : ((termWriteln demoElems).bind fun m => (m.evalScreen demoEnv (Buf.new ⟨2, 8⟩))).map
    (fun b => b.buffer.take 6) =
    some [⟨some .red, none, 0#8, ['h']⟩, ⟨some .red, none, 0#8, ['i']⟩,
      ⟨some .red, none, 1#8, ['4']⟩, ⟨some .red, none, 1#8, ['2']⟩,
      ⟨some .red, some .blue, 1#8, ['x']⟩, ⟨none, none, 0#8, [' ']⟩] := by decide +kernel

end Mortal
