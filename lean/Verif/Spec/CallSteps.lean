import Verif.Spec.Locks

/-! # What a call does to the locks and to the writer (C71) -/

namespace Mortal.Spec

/-- What one thread does, as far as the locks and the writer are concerned. -/
inductive Act (σ : Type)
  | took (l : LockId)
  | gave (l : LockId)
  | applied (f : σ → Outcome σ)

/-- What thread `t` does in an execution, in order. -/
def own {σ : Type} (t : Nat) : List (Nat × Label σ) → List (Act σ)
  | [] => []
  | (i, a) :: tr =>
    match i == t, a with
    | true, .acq l => .took l :: own t tr
    | true, .rel l => .gave l :: own t tr
    | true, .use f => .applied f :: own t tr
    | _, _ => own t tr

/-- Locks are taken, functions are applied to the writer, and locks are given back; before the writer's
is, `fin` is applied. -/
def work {σ : Type} (fin : List (σ → Outcome σ)) (takes : List LockId) (fs : List (σ → Outcome σ))
    (gives : List LockId) : List (Act σ) :=
  takes.map .took ++ (fs ++ if .writer ∈ gives then fin else []).map .applied ++ gives.map .gave

/-- What the caller asks to be done to the writer. A refresh of a screen is done twice: by the call, and
by the drop of the guard it uses. -/
def asked {σ : Type} : Call σ → List (σ → Outcome σ)
  | .tWrite f | .tPrepare f | .trPrepare f | .trPrepareWithLock f | .twWrite f | .sSetCursorMode f
  | .swWrite f | .swDrop f => [f]
  | .sRefresh f g => [f, g]
  | _ => []

/-- On Windows preparing and restoring the terminal does nothing to the writer. -/
def askedWin {σ : Type} : Call σ → List (σ → Outcome σ)
  | .tPrepare _ | .trPrepare _ | .trPrepareWithLock _ => []
  | c => asked c

/-- The locks a call gives back: those it took or that were those of a guard it drops, and whose guard
it does not return. The writer's is first, the reader's last. -/
def givesBack {σ : Type} (takes : List LockId) (c : Call σ) : List LockId :=
  [.writer, .data, .reader].filter fun l => (takes ++ handsBack c).contains l && !(handsOut c).contains l

/-- What happens while something is read: the function a call that reads has is what is written when the
process is continued. -/
inductive Interrupt {σ : Type} (fin : List (σ → Outcome σ)) : Call σ → List (Act σ) → Prop
  | nothing (c : Call σ) : Interrupt fin c []
  | resizeT {c : Call σ} : ofScreen c = false → Interrupt fin c (work fin [.writer] [] [.writer])
  | resizeS {c : Call σ} : ofScreen c = true →
      Interrupt fin c (work fin [.writer] [] [.writer] ++ work fin [.data] [] [.data])
  | continued {f : σ → Outcome σ} {c : Call σ} : c ∈ [Call.tRead f, .trRead f, .sRead f, .srRead f] →
      Interrupt fin c (work fin [.writer] [f] [.writer])

/-- The same on Windows, where only a screen does anything. -/
inductive InterruptWin {σ : Type} : Call σ → List (Act σ) → Prop
  | nothing (c : Call σ) : InterruptWin c []
  | resizeS {c : Call σ} : ofScreen c = true → InterruptWin c (work [] [.data] [] [.data])

/-- What a call that returns does. -/
inductive DoesCall {σ : Type} (fin : List (σ → Outcome σ)) (takes : Call σ → List LockId)
    (asks : Call σ → List (σ → Outcome σ)) (intr : Call σ → List (Act σ) → Prop) : Call σ → List (Act σ) → Prop
  /-- A call that neither reads nor is one of `try_lock_…`. -/
  | plain {c : Call σ} : isRead c = false → mayHandOut c = [] →
      DoesCall fin takes asks intr c (work fin (takes c) (asks c) (givesBack (takes c) c))
  /-- `try_lock_…` gets all the locks it needs, -/
  | tryAll {c : Call σ} : mayHandOut c ≠ [] → DoesCall fin takes asks intr c ((mayHandOut c).map .took)
  /-- or gives back those it got. -/
  | tryBack {c : Call σ} {got : List LockId} : got.Sublist (mayHandOut c) → got ≠ mayHandOut c →
      DoesCall fin takes asks intr c (work fin got [] got)
  /-- A call of a terminal or screen that reads holds the lock for reading all the time, -/
  | read {c : Call σ} {m : List (Act σ)} : isRead c = true → needs c = [] → intr c m →
      DoesCall fin takes asks intr c (.took .reader :: m ++ [.gave .reader])
  /-- one of a guard has it. -/
  | readGuard {c : Call σ} {m : List (Act σ)} : isRead c = true → needs c = [.reader] → intr c m →
      DoesCall fin takes asks intr c m

/-- What the implementation for Unix does: the drop of a write guard ends the session
(`src/unix/terminal.rs:1049-1055`). -/
def DoesUnix (env : WEnv) : Call WS → List (Act WS) → Prop :=
  let fin := [WOp.sessionEnd.run env]
  DoesCall fin takes asked (Interrupt fin)

/-- What the implementation for Windows does. -/
def DoesWin {σ : Type} : Call σ → List (Act σ) → Prop := DoesCall [] takesWin askedWin InterruptWin

/-- The locks of some set, in the order in which guards are dropped. -/
def heldOf (H : LockId → Bool) : List LockId := [.writer, .data, .reader].filter H

/-- The call is one whose result may contain a guard. -/
def asksForGuard {σ : Type} (c : Call σ) : Bool := !(handsOut c).isEmpty || !(mayHandOut c).isEmpty

end Mortal.Spec
