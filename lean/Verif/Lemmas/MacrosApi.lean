import Verif.Lemmas.Macros
import Verif.Lemmas.Api

/-! # The macros and the public methods -/

namespace Mortal
open Spec

theorem onTerm_method (env : WEnv) (c : MCall) : c.onTerm env = (methodOf c).guardUnix.run env := by
  cases c <;> rfl

theorem onWin_method (t : WTerm) (c : MCall) : c.onWin t = (methodOf c).guardWin t := by
  cases c <;> rfl

theorem onScreen_method (u : UEnv) (c : MCall) (b : Buf) :
    c.onScreen u b = (SPub.asks (screenMethodOf c)).run u b := by
  cases c <;> rfl

/-- The calls on a guard all succeed. -/
theorem guardCalls_allOk (env : WEnv) : ∀ (cs : List MCall) (s t : WS),
    guardCallsUnix env (cs.map fun c => some (methodOf c)) s =
      some (cs.map fun c => (methodOf c, true), t) ↔ AllOk env cs s t
  | [], s, t => by
    constructor
    · intro h; cases h; exact .nil
    · intro h; cases h; rfl
  | c :: cs, s, t => by
    simp only [List.map_cons, guardCallsUnix]
    rw [← onTerm_method]
    cases hc : c.onTerm env s with
    | ok s1 =>
      dsimp only
      constructor
      · intro h
        obtain ⟨⟨l, t1⟩, h1, h2⟩ := Option.map_eq_some_iff.mp h
        simp only [Prod.mk.injEq, List.cons.injEq, true_and] at h2
        obtain ⟨rfl, rfl⟩ := h2
        exact .cons hc ((guardCalls_allOk env cs s1 t1).mp h1)
      · intro h
        cases h with
        | cons h1 h2 =>
          rw [hc] at h1
          cases h1
          rw [(guardCalls_allOk env cs _ t).mpr h2]
          rfl
    | err e s1 =>
      dsimp only
      constructor
      · intro h
        obtain ⟨⟨l, t1⟩, h1, h2⟩ := Option.map_eq_some_iff.mp h
        simp at h2
      · intro h
        cases h with
        | cons h1 h2 => rw [hc] at h1; cases h1
    | stop w =>
      constructor
      · intro h; cases h
      · intro h
        cases h with
        | cons h1 h2 => rw [hc] at h1; cases h1

/-- The last of the calls on a guard fails, the others succeed. -/
theorem guardCalls_fails (env : WEnv) : ∀ (done : List MCall) (c : MCall) (s t : WS),
    guardCallsUnix env ((done ++ [c]).map fun c => some (methodOf c)) s =
      some (done.map (fun c => (methodOf c, true)) ++ [(methodOf c, false)], t) ↔
      ∃ s' e, AllOk env done s s' ∧ c.onTerm env s' = .err e t
  | [], c, s, t => by
    simp only [List.nil_append, List.map_cons, List.map_nil, guardCallsUnix]
    rw [← onTerm_method]
    cases hc : c.onTerm env s with
    | ok s1 =>
      constructor
      · intro h; simp at h
      · rintro ⟨s', e, h, h1⟩
        cases h
        rw [hc] at h1; cases h1
    | err e s1 =>
      constructor
      · intro h
        simp only [Option.map_some, Option.some.injEq, Prod.mk.injEq, true_and] at h
        exact ⟨s, e, .nil, by rw [hc, h]⟩
      · rintro ⟨s', e', h, h1⟩
        cases h
        rw [hc] at h1; cases h1
        rfl
    | stop w =>
      constructor
      · intro h; cases h
      · rintro ⟨s', e', h, h1⟩
        cases h
        rw [hc] at h1; cases h1
  | d :: done, c, s, t => by
    simp only [List.cons_append, List.map_cons, guardCallsUnix]
    rw [← onTerm_method]
    cases hc : d.onTerm env s with
    | ok s1 =>
      dsimp only
      constructor
      · intro h
        obtain ⟨⟨l, t1⟩, h1, h2⟩ := Option.map_eq_some_iff.mp h
        simp only [Prod.mk.injEq, List.cons.injEq, true_and] at h2
        obtain ⟨rfl, rfl⟩ := h2
        obtain ⟨s', e, h3, h4⟩ := (guardCalls_fails env done c s1 t1).mp h1
        exact ⟨s', e, .cons hc h3, h4⟩
      · rintro ⟨s', e, h, h1⟩
        cases h with
        | cons h2 h3 =>
          rw [hc] at h2
          cases h2
          rw [(guardCalls_fails env done c _ t).mpr ⟨s', e, h3, h1⟩]
          rfl
    | err e s1 =>
      dsimp only
      constructor
      · intro h
        obtain ⟨⟨l, t1⟩, h1, h2⟩ := Option.map_eq_some_iff.mp h
        simp at h2
      · rintro ⟨s', e, h, h1⟩
        cases h with
        | cons h2 h3 => rw [hc] at h2; cases h2
    | stop w =>
      constructor
      · intro h; cases h
      · rintro ⟨s', e, h, h1⟩
        cases h with
        | cons h2 h3 => rw [hc] at h2; cases h2

/-- One guard. -/
theorem runPub_guard (env : WEnv) (ops : List (Option PubOp)) (s t : WS) (l : List (PubOp × Bool)) :
    runPubUnix env [.guard ops] s = some (l, t) ↔
      ∃ s', guardCallsUnix env ops s = some (l, s') ∧ WOp.sessionEnd.run env s' = .ok t := by
  simp only [runPubUnix]
  cases hc : guardCallsUnix env ops s with
  | none =>
    constructor
    · intro h; cases h
    · rintro ⟨s', h, -⟩; cases h
  | some x =>
    obtain ⟨l1, s1⟩ := x
    dsimp only
    cases hd : WOp.sessionEnd.run env s1 with
    | ok s2 =>
      constructor
      · intro h
        simp only [Outcome.state, Option.map_some, List.append_nil, Option.some.injEq, Prod.mk.injEq] at h
        obtain ⟨rfl, rfl⟩ := h
        exact ⟨s1, rfl, hd⟩
      · rintro ⟨s', h, h1⟩
        cases h
        rw [hd] at h1
        cases h1
        simp [Outcome.state]
    | err e s2 => exact absurd hd (sessionEnd_not_err env s1 s2 e)
    | stop w =>
      constructor
      · intro h; cases h
      · rintro ⟨s', h, h1⟩
        cases h
        rw [hd] at h1
        cases h1

/-! ## Windows -/

/-- The expression a list of calls becomes, evaluated from the left. -/
def winAll (t : WTerm) : List MCall → WM Unit
  | [] => pure ()
  | c :: cs => do
    c.onWin t
    winAll t cs

theorem SM.bind_ap {σ α β : Type} (m : SM σ α) (f : α → SM σ β) (s : σ) :
    (m >>= f) s = match m s with | .ok a s' => f a s' | .err e s' => .err e s' | .stop w => .stop w := rfl

theorem evalWin_foldl (t : WTerm) (cs : List MCall) : ∀ (r : MExpr) (s : WinSt),
    (cs.foldl MExpr.chain r).evalWin t s = (do r.evalWin t; winAll t cs : WM Unit) s := by
  induction cs with
  | nil =>
    intro r s
    rw [SM.bind_ap]
    simp only [List.foldl_nil]
    cases r.evalWin t s <;> rfl
  | cons c cs ih =>
    intro r s
    simp only [List.foldl_cons, ih, MExpr.evalWin, winAll]
    rw [SM.bind_ap, SM.bind_ap, SM.bind_ap]
    cases r.evalWin t s with
    | ok a s1 => rfl
    | err e s1 => rfl
    | stop w => rfl

theorem winAll_ok (t : WTerm) : ∀ (cs : List MCall) (s s' : WinSt), winAll t cs s = .ok () s' ↔
    callsWin (PubOp.guardWin t) (cs.map fun c => some (methodOf c)) s =
      some (cs.map fun c => (methodOf c, true), s')
  | [], s, s' => by
    constructor
    · intro h; cases h; rfl
    · intro h; cases h; rfl
  | c :: cs, s, s' => by
    simp only [List.map_cons, callsWin, winAll]
    rw [SM.bind_ap, ← onWin_method]
    cases hc : c.onWin t s with
    | ok a s1 =>
      dsimp only
      rw [winAll_ok t cs s1 s']
      constructor
      · intro h; rw [h]; rfl
      · intro h
        obtain ⟨⟨l, t1⟩, h1, h2⟩ := Option.map_eq_some_iff.mp h
        simp only [Prod.mk.injEq, List.cons.injEq, true_and] at h2
        obtain ⟨rfl, rfl⟩ := h2
        exact h1
    | err e s1 =>
      dsimp only
      constructor
      · intro h; cases h
      · intro h
        obtain ⟨⟨l, t1⟩, h1, h2⟩ := Option.map_eq_some_iff.mp h
        simp at h2
    | stop w =>
      constructor
      · intro h; cases h
      · intro h; cases h

theorem winAll_err (t : WTerm) : ∀ (cs : List MCall) (s s' : WinSt) (e : IoErr), winAll t cs s = .err e s' ↔
    ∃ done c rest s1, cs = done ++ c :: rest ∧ winAll t done s = .ok () s1 ∧ c.onWin t s1 = .err e s'
  | [], s, s', e => by
    constructor
    · intro h; cases h
    · rintro ⟨done, c, rest, s1, h, -⟩; cases done <;> cases h
  | c :: cs, s, s', e => by
    simp only [winAll]
    rw [SM.bind_ap]
    cases hc : c.onWin t s with
    | ok a s1 =>
      dsimp only
      rw [winAll_err t cs s1 s' e]
      constructor
      · rintro ⟨done, c', rest, s2, rfl, h1, h2⟩
        refine ⟨c :: done, c', rest, s2, rfl, ?_, h2⟩
        simp only [winAll]
        rw [SM.bind_ap, hc]
        exact h1
      · rintro ⟨done, c', rest, s2, h, h1, h2⟩
        cases done with
        | nil => cases h; cases h1; rw [hc] at h2; cases h2
        | cons d done =>
          cases h
          simp only [winAll] at h1
          rw [SM.bind_ap, hc] at h1
          exact ⟨done, c', rest, s2, rfl, h1, h2⟩
    | err e1 s1 =>
      dsimp only
      constructor
      · intro h; cases h; exact ⟨[], c, cs, s, rfl, rfl, hc⟩
      · rintro ⟨done, c', rest, s2, h, h1, h2⟩
        cases done with
        | nil => cases h; cases h1; rw [hc] at h2; cases h2; rfl
        | cons d done =>
          cases h
          simp only [winAll] at h1
          rw [SM.bind_ap, hc] at h1
          cases h1
    | stop w =>
      constructor
      · intro h; cases h
      · rintro ⟨done, c', rest, s2, h, h1, h2⟩
        cases done with
        | nil => cases h; cases h1; rw [hc] at h2; cases h2
        | cons d done =>
          cases h
          simp only [winAll] at h1
          rw [SM.bind_ap, hc] at h1
          cases h1

/-- The last of the calls on a Windows guard fails, the others succeed. -/
theorem callsWin_fails (t : WTerm) : ∀ (done : List MCall) (c : MCall) (s s' : WinSt),
    callsWin (PubOp.guardWin t) ((done ++ [c]).map fun c => some (methodOf c)) s =
      some (done.map (fun c => (methodOf c, true)) ++ [(methodOf c, false)], s') ↔
      ∃ s1 e, winAll t done s = .ok () s1 ∧ c.onWin t s1 = .err e s'
  | [], c, s, t' => by
    simp only [List.nil_append, List.map_cons, List.map_nil, callsWin]
    rw [← onWin_method]
    cases hc : c.onWin t s with
    | ok a s1 =>
      constructor
      · intro h; simp at h
      · rintro ⟨s', e, h, h1⟩
        cases h
        rw [hc] at h1; cases h1
    | err e s1 =>
      constructor
      · intro h
        simp only [Option.map_some, Option.some.injEq, Prod.mk.injEq, true_and] at h
        exact ⟨s, e, rfl, by rw [hc, h]⟩
      · rintro ⟨s', e', h, h1⟩
        cases h
        rw [hc] at h1; cases h1
        rfl
    | stop w =>
      constructor
      · intro h; cases h
      · rintro ⟨s', e', h, h1⟩
        cases h
        rw [hc] at h1; cases h1
  | d :: done, c, s, t' => by
    simp only [List.cons_append, List.map_cons, callsWin, winAll]
    rw [← onWin_method]
    cases hc : d.onWin t s with
    | ok a s1 =>
      dsimp only
      constructor
      · intro h
        obtain ⟨⟨l, t1⟩, h1, h2⟩ := Option.map_eq_some_iff.mp h
        simp only [Prod.mk.injEq, List.cons.injEq, true_and] at h2
        obtain ⟨rfl, rfl⟩ := h2
        obtain ⟨s', e, h3, h4⟩ := (callsWin_fails t done c s1 t1).mp h1
        exact ⟨s', e, by rw [SM.bind_ap, hc]; exact h3, h4⟩
      · rintro ⟨s', e, h, h1⟩
        rw [SM.bind_ap, hc] at h
        rw [(callsWin_fails t done c s1 t').mpr ⟨s', e, h, h1⟩]
        rfl
    | err e s1 =>
      dsimp only
      constructor
      · intro h
        obtain ⟨⟨l, t1⟩, h1, h2⟩ := Option.map_eq_some_iff.mp h
        simp at h2
      · rintro ⟨s', e, h, h1⟩
        rw [SM.bind_ap, hc] at h
        cases h
    | stop w =>
      constructor
      · intro h; cases h
      · rintro ⟨s', e, h, h1⟩
        rw [SM.bind_ap, hc] at h
        cases h

/-! ## Screens -/

theorem foldlM_runOps (u : UEnv) (cs : List MCall) : ∀ (b : Buf),
    cs.foldlM (fun b c => c.onScreen u b) b = runOps u (cs.map fun c => SPub.asks (screenMethodOf c)) b := by
  induction cs with
  | nil => intro b; rfl
  | cons c cs ih =>
    intro b
    simp only [List.foldlM_cons, List.map_cons, runOps]
    rw [onScreen_method]
    cases (SPub.asks (screenMethodOf c)).run u b with
    | none => rfl
    | some b' => exact ih b'

theorem guardSession_draws (u : UEnv) (env : WEnv) (ops : List BufOp) : ∀ (s : Scr) (b : Buf),
    runOps u ops s.buf = some b →
    guardSession u env (ops.map .draw) s = guardDrop u env { s with buf := b } := by
  induction ops with
  | nil => intro s b h; cases h; rfl
  | cons o ops ih =>
    intro s b h
    simp only [runOps] at h
    simp only [List.map_cons, guardSession, GOp.run]
    cases hc : o.run u s.buf with
    | none => rw [hc] at h; cases h
    | some b1 =>
      rw [hc] at h
      dsimp only
      exact ih { s with buf := b1 } b h

theorem guardSession_panics (u : UEnv) (env : WEnv) (ops : List BufOp) : ∀ (s : Scr),
    runOps u ops s.buf = none → (guardSession u env (ops.map .draw) s).state = none := by
  induction ops with
  | nil => intro s h; cases h
  | cons o ops ih =>
    intro s h
    simp only [runOps] at h
    simp only [List.map_cons, guardSession, GOp.run]
    cases hc : o.run u s.buf with
    | none => rfl
    | some b1 =>
      rw [hc] at h
      dsimp only
      exact ih { s with buf := b1 } h

end Mortal
