import Verif.Spec.Console

/-! # Specification: text sent to a Windows console -/

namespace Mortal.Spec

/-- The units the console has accepted for a screen buffer. -/
def accepted (h : Nat) (l : List WEv) : List (BitVec 16) :=
  l.flatMap fun
    | .call (.write h' us) (.wrote n) => if h' = h then us.take n else []
    | _ => []

/-- The console never claims to have written more than it was given. -/
def HonestWrites (l : List WEv) : Prop :=
  ∀ h us n, WEv.call (.write h us) (.wrote n) ∈ l → n ≤ us.length

/-- The only calls are those that write to `h`, and they succeeded. -/
def OnlyWrites (h : Nat) (l : List WEv) : Prop :=
  ∀ c a, WEv.call c a ∈ l → ∃ us n, c = .write h us ∧ a = .wrote n

/-- Every call made some progress. -/
def SomeProgress (os : List ConStep) : Prop := ∀ st ∈ os, ∃ n, 0 < n ∧ st.ans = .wrote n

end Mortal.Spec
