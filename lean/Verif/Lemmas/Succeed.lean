import Verif.Lemmas.Api
import Verif.Props.Writer
import Verif.Spec.Succeed

/-! # Calls that cannot fail -/

namespace Mortal
open Spec

/-- The device looks as the writer believes. -/
def InStep (s : WS) : Prop := devAttrs s.log = view s.theme

theorem inStep_run {env : WEnv} (hfull : FullAttrs env) {op : WOp} {s s' : WS} (h : InStep s)
    (hr : (op.run env s).state = some s') : InStep s' := by
  have key : ∃ tr, traceW env [op] s = some (tr, s') := by
    cases ho : op.run env s with
    | ok x => rw [ho] at hr; cases hr; exact ⟨[(op, true)], by simp [traceW, ho]⟩
    | err e x => rw [ho] at hr; cases hr; exact ⟨[(op, false)], by simp [traceW, ho]⟩
    | stop w => rw [ho] at hr; cases hr
  obtain ⟨tr, ht⟩ := key
  have := trace_follow env hfull [op] s s' s.theme tr rfl h ht
  unfold InStep
  rw [this.1, this.2]

theorem attr_succeeds {env : WEnv} (hfull : FullAttrs env) {op : WOp} (ha : IsAttrCall op) {s : WS}
    (h : InStep s) (e : IoErr) (s' : WS) : op.run env s ≠ .err e s' := by
  intro ho
  have := attrCall_post (F := FullAttrs env) (env := env) ha (t := s.theme) ⟨rfl, fun _ => h⟩ true
  rw [ho] at this
  exact this hfull

theorem write_succeeds {b : Bytes} {s : WS} (h : TakesAll s.os) (e : IoErr) (s' : WS) :
    writeBytes b s ≠ .err e s' := by
  have rest : ∀ x : WS, TakesAll x.os → (if b.length > x.capacity then
      match writeData b x.os 0 x.dev with
      | .blocked => (.stop .blocked : Outcome WS)
      | .done _ os dev none => .ok { x with os := os, dev := dev, log := x.log ++ [Out.text b] }
      | .done _ os dev (some e) => .err e { x with os := os, dev := dev }
    else .ok { x with pending := x.pending ++ b, log := x.log ++ [Out.text b] }) ≠ .err e s' := by
    intro x hx
    split
    · have hw := writeData_takes b x.os 0 x.dev hx
      cases hd : writeData b x.os 0 x.dev with
      | blocked => intro hh; cases hh
      | done n os dev r =>
        rw [hd] at hw
        obtain ⟨-, rfl⟩ := hw
        intro hh; cases hh
    · intro hh; cases hh
  unfold writeBytes
  split
  · have hf := flush_takes h
    cases hd : flush s with
    | ok x => exact rest x (hf.1 x (by rw [hd]; rfl))
    | err e1 x => exact absurd hd (hf.2 _ _)
    | stop w => intro hh; cases hh
  · exact rest s h

theorem Spec.AllCaps.full {env : WEnv} (h : AllCaps env) : FullAttrs env := fun c _ => h c

theorem expand_succeeds {env : WEnv} {c : Cap} {ps : List Nat} {f : List Nat → Bytes × Bool} {s : WS}
    (hf : (f ps).2 = true) (e : IoErr) (s' : WS) : expand env c ps f s ≠ .err e s' := by
  unfold expand
  dsimp only
  rw [hf]
  intro hh; cases hh

theorem req_succeeds {env : WEnv} (h : AllCaps env) {c : Cap} {ps : List Nat} {s : WS} (e : IoErr)
    (s' : WS) : expandReq env c ps s ≠ .err e s' := by
  obtain ⟨f, h1, h2⟩ := h c
  unfold expandReq
  rw [h1]
  exact expand_succeeds (h2 ps) e s'

theorem opt_succeeds {env : WEnv} (h : AllCaps env) {c : Cap} {ps : List Nat} {s : WS} (e : IoErr)
    (s' : WS) : expandOpt env c ps s ≠ .err e s' := by
  obtain ⟨f, h1, h2⟩ := h c
  unfold expandOpt
  rw [h1]
  exact expand_succeeds (h2 ps) e s'

theorem call_succeeds {env : WEnv} (h : AllCaps env) (op : WOp) {s : WS} (hi : InStep s)
    (ht : TakesAll s.os) (e : IoErr) (s' : WS) : op.run env s ≠ .err e s' := by
  have nok : ∀ x : WS, (.ok x : Outcome WS) ≠ .err e s' := fun x hh => by cases hh
  cases op
  case writeStyled fg bg st t =>
    show writeStyled env fg bg st t s ≠ _
    unfold writeStyled
    have e1 : setAttrs env fg bg st s = WOp.run env (.setTheme ⟨fg, bg, st⟩) s := rfl
    rw [e1]
    cases h1 : WOp.run env (.setTheme ⟨fg, bg, st⟩) s with
    | stop w => intro hh; cases hh
    | err e2 x => exact absurd h1 (attr_succeeds h.full (op := .setTheme ⟨fg, bg, st⟩) trivial hi _ _)
    | ok x =>
      have i1 : InStep x := inStep_run h.full hi (by rw [h1]; rfl)
      have t1 : TakesAll x.os := inv_run (takes_inv env) _ s ht x (by rw [h1]; rfl)
      show (writeBytes t x >>? clearAttributes env) ≠ _
      cases h2 : writeBytes t x with
      | stop w => intro hh; cases hh
      | err e2 y => exact absurd h2 (write_succeeds t1 _ _)
      | ok y =>
        have i2 : InStep y := inStep_run h.full (op := .writeStr t) i1
          (by show (writeBytes t x).state = _; rw [h2]; rfl)
        exact attr_succeeds h.full (op := .clearAttributes) trivial i2 e s'
  case writeStr t => exact write_succeeds ht e s'
  case flush => exact (flush_takes ht).2 e s'
  case clearScreen => exact req_succeeds h e s'
  case clearToLineEnd => exact req_succeeds h e s'
  case clearToScreenEnd => exact req_succeeds h e s'
  case moveUp n =>
    show moveUp env n s ≠ _
    unfold moveUp; split <;> [skip; split] <;> first | exact req_succeeds h e s' | exact nok _
  case moveDown n =>
    show moveDown env n s ≠ _
    unfold moveDown; split <;> first | exact req_succeeds h e s' | exact nok _
  case moveLeft n =>
    show moveLeft env n s ≠ _
    unfold moveLeft; split <;> [skip; split] <;> first | exact req_succeeds h e s' | exact nok _
  case moveRight n =>
    show moveRight env n s ≠ _
    unfold moveRight; split <;> [skip; split] <;> first | exact req_succeeds h e s' | exact nok _
  case moveToFirstColumn => exact write_succeeds ht e s'
  case moveCursor p =>
    show moveCursor env p s ≠ _
    obtain ⟨f, f1, f2⟩ := h .cursorAddress
    obtain ⟨g, g1, g2⟩ := h .cursorHome
    unfold moveCursor
    rw [f1, g1]
    dsimp only
    split
    · exact expand_succeeds (g2 _) e s'
    · exact expand_succeeds (f2 _) e s'
  case setCursorMode m =>
    show setCursorMode env m s ≠ _
    unfold setCursorMode; split <;> exact opt_succeeds h e s'
  case sessionEnd =>
    simp only [WOp.run]
    cases hd : Mortal.flush s with
    | ok x => exact nok _
    | err e1 x => exact nok _
    | stop w => intro hh; cases hh
  all_goals refine attr_succeeds h.full ?_ hi e s'; exact True.intro

end Mortal
