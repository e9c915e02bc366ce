import Verif.Spec.ScreenSession

/-!
# A screen and the window that shows it (C59)

A program uses a screen while the window changes its size at any time. The terminal receives what
the program sends. Where `Term.step` has no result, and when the window changes its size, the
terminal may show anything afterwards.
-/

namespace Mortal.Spec

/-- One of the escape sequences that switch mouse reporting. They change nothing one can see. -/
def MouseText (o : Out) : Prop :=
  o = .text mouseOnText ∨ o = .text mouseOffText ∨ o = .text motionOnText ∨ o = .text motionOffText

instance (o : Out) : Decidable (MouseText o) := by unfold MouseText; infer_instance

/-- What a command or text does to the terminal, if that is specified. -/
def Term.react (u : UEnv) (t : Term) (o : Out) : Option Term :=
  if MouseText o then some t else t.step u o

/-- A command or text may change terminal `t` to `t'`. If its effect is not specified, only the size
and the attributes in effect are known afterwards. -/
def Term.May (u : UEnv) (t : Term) (o : Out) (t' : Term) : Prop :=
  (∀ t1, t.react u o = some t1 → t' = t1) ∧
  (t.react u o = none →
    t'.size = t.size ∧ t'.attrs = devStep t.attrs o ∧ t'.bce = t.bce)

/-- A sequence of commands and texts may change terminal `t` to `t'`. -/
inductive Term.Reacts (u : UEnv) : Term → List Out → Term → Prop
  | nil (t : Term) : Reacts u t [] t
  | cons {t t1 t2 : Term} {o : Out} {os : List Out} : t.May u o t1 → Reacts u t1 os t2 →
      Reacts u t (o :: os) t2

/-- The steps that a call took which led from `s` to `s'`. -/
def stepsUsed (s s' : US) : List Step := s.sched.take (s.sched.length - s'.sched.length)

/-- During that call the window kept its size. -/
def SizeKept (s s' : US) : Prop := ∀ st ∈ stepsUsed s s', st.resize = none

instance (s s' : US) : Decidable (SizeKept s s') := by unfold SizeKept; infer_instance

/-- What that call handed over for output. -/
def newOut (s s' : US) : List Out := s'.w.log.drop s.w.log.length

/-- What may have become of the terminal by the end of that call. When the window changed its size
meanwhile, only the size and the attributes in effect are known. -/
def Looks (u : UEnv) (t : Term) (s s' : US) (t' : Term) : Prop :=
  (SizeKept s s' → t.Reacts u (newOut s s') t') ∧
  (¬ SizeKept s s' →
    t'.size = s'.size ∧ t'.attrs = (newOut s s').foldl devStep t.attrs ∧ t'.bce = t.bce)

/-- A screen's data, the system, and the terminal. -/
structure Live where
  d : SData
  s : US
  t : Term

/-- What happens: a call with its result, during which the window kept its size or not; or, between
calls, the window takes a new size. -/
inductive LiveEv
  | call (op : ScrOp) (r : URet) (kept : Bool)
  | window (z : Size)

/-- A history. (The signal that the kernel sends when the window has a new size may arrive at any
time, as the schedule has it.) -/
inductive LiveRun (u : UEnv) (env : REnv) : Live → List LiveEv → Live → Prop
  | done (x : Live) : LiveRun u env x [] x
  | call {x y : Live} {op : ScrOp} {r : URet} {d : SData} {s : US} {t : Term} {es : List LiveEv} :
      op.run u env x.d x.s = some (r, d, s) → Looks u x.t x.s s t →
      LiveRun u env ⟨d, s, t⟩ es y → LiveRun u env x (.call op r (decide (SizeKept x.s s)) :: es) y
  | window {x y : Live} {z : Size} {t : Term} {es : List LiveEv} :
      ScreenSize z → t.size = z → t.attrs = x.t.attrs → t.bce = x.t.bce →
      LiveRun u env ⟨x.d, { x.s with size := z }, t⟩ es y → LiveRun u env x (.window z :: es) y

/-- The call reported a size. -/
def LiveEv.told : LiveEv → Bool
  | .call _ (.event (some (.resize _))) _ => true
  | _ => false

/-- Whether the last change of the window's size has been reported to the program (`k`: at the
beginning). -/
def upToDate : Bool → List LiveEv → Bool
  | k, [] => k
  | _, .window _ :: es => upToDate false es
  | k, .call op r kept :: es =>
    upToDate ((LiveEv.call op r kept).told || (k && kept)) es

/-- The drawing calls of a program on a guard. -/
def GOp.asked : GOp → Option BufOp
  | .draw op => some op
  | _ => none

/-- What an event asks to be shown. -/
def LiveEv.asked : LiveEv → List BufOp
  | .call (.draw op) _ _ => [op]
  | .call (.guard ops) _ _ => ops.filterMap GOp.asked
  | .call _ (.event (some (.resize z))) _ => [.resize z]
  | _ => []

/-- A drawing call without two-column characters. -/
def NarrowDraw (u : UEnv) (op : BufOp) : Prop :=
  (∀ z, op ≠ .resize z) ∧ (∀ ch ∈ opText op, u.w ch ≠ 2) ∧ ThinMarks u (opText op)

/-- A call whose drawing has none. -/
def NarrowCall (u : UEnv) : ScrOp → Prop
  | .draw op => NarrowDraw u op
  | .guard ops => ∀ op, .draw op ∈ ops → NarrowDraw u op
  | _ => True

/-- The window has a reasonable size, now and later, and the device accepts what it is given. -/
def GoodWindow (s : US) : Prop :=
  ScreenSize s.size ∧ (∀ st ∈ s.sched, ∀ z, st.resize = some z → ScreenSize z) ∧
  ∀ r ∈ s.w.os, r = .all ∨ r = .eintr

/-- A terminal that was used through `ops` before, and shows anything. -/
def UsedBefore (env : WEnv) (s : US) (t : Term) : Prop :=
  (∃ (ops : List WOp) (os : List WriteRes), NoShortWrites os ∧ runW env ops (WS.new os) = some s.w) ∧
  t.size = s.size ∧ t.attrs = devAttrs s.w.log

end Mortal.Spec
