import Verif.Model.Locks
import Verif.Model.Screen

/-! # Rules for the use of the locks, and deadlock (C24, C38, C39) -/

namespace Mortal.Spec

/-- The call is one of a screen or its guards (`true`), or of a terminal or its guards. -/
def ofScreen {σ : Type} : Call σ → Bool
  | .tLockRead | .tLockWrite | .tTryLockRead | .tTryLockWrite | .tWrite _ | .tWait | .tRead _
  | .tPrepare _ | .trWait | .trRead _ | .trPrepare _ | .trPrepareWithLock _ | .trDrop | .twWrite _
  | .twDrop => false
  | _ => true

/-- The locks a thread must hold, in the form of guards, to be able to make a call at all. -/
def needs {σ : Type} : Call σ → List LockId
  | .trWait | .trRead _ | .trPrepare _ | .trDrop | .srWait | .srRead _ | .srDrop => [.reader]
  | .trPrepareWithLock _ => [.reader, .writer]
  | .twWrite _ | .twDrop => [.writer]
  | .swDraw | .swWrite _ | .swDrop _ => [.writer, .data]
  | _ => []

/-- The locks a call waits for. For methods of terminals and screens the documentation says which
(`src/terminal.rs:591-663`, `src/screen.rs:111-155`; the third lock is an inner one of the screen); for
methods of a read guard it is what happens when a signal arrives. -/
def takes {σ : Type} : Call σ → List LockId
  | .tLockRead | .tWait | .sLockRead | .sWait => [.reader]
  | .tLockWrite | .tWrite _ | .trPrepare _ | .trRead _ | .sSetCursorMode _ => [.writer]
  | .tRead _ | .tPrepare _ => [.reader, .writer]
  | .sLockWrite | .sRefresh _ _ => [.writer, .data]
  | .sDraw => [.data]
  | .sRead _ => [.reader, .writer, .data]
  | .srRead _ => [.writer, .data]
  | _ => []

/-- A thread uses only guards it has, and only a terminal, or only a screen. -/
def Typed {σ : Type} (scr : Bool) (holds : LockId → Bool) (c : Call σ) : Prop :=
  ofScreen c = scr ∧ ∀ l ∈ needs c, holds l = true

/-- The documented rule (`src/terminal.rs:514-515`, `src/screen.rs:28-29`): the read lock is acquired
before the write lock. -/
def ReadFirst {σ : Type} (scr : Bool) (holds : LockId → Bool) (c : Call σ) : Prop :=
  Typed scr holds c ∧ (.reader ∈ takes c → holds .writer = false)

/-- The documented rule, and no thread makes a call that waits for a lock the thread holds. -/
def Careful {σ : Type} (scr : Bool) (holds : LockId → Bool) (c : Call σ) : Prop :=
  ReadFirst scr holds c ∧ ∀ l ∈ takes c, holds l = false

/-- The locks a call waits for on Windows. Reading does not take the write lock there: a read of a
terminal takes only the read lock, one through a guard takes none; a screen's data are locked when the
window was resized. -/
def takesWin {σ : Type} : Call σ → List LockId
  | .tLockRead | .tWait | .tRead _ | .sLockRead | .sWait => [.reader]
  | .tLockWrite | .tWrite _ | .trPrepare _ | .sSetCursorMode _ => [.writer]
  | .tPrepare _ => [.reader, .writer]
  | .sLockWrite | .sRefresh _ _ => [.writer, .data]
  | .sDraw | .srRead _ => [.data]
  | .sRead _ => [.reader, .data]
  | _ => []

/-- The calls that read. -/
def isRead {σ : Type} : Call σ → Bool
  | .tRead _ | .trRead _ | .sRead _ | .srRead _ => true
  | _ => false

/-- `Careful` with the locks taken on Windows. -/
def CarefulWin {σ : Type} (scr : Bool) (holds : LockId → Bool) (c : Call σ) : Prop :=
  (Typed scr holds c ∧ (.reader ∈ takesWin c → holds .writer = false)) ∧ ∀ l ∈ takesWin c, holds l = false

/-- The locks whose guard a call returns, if it returns (`src/terminal.rs:591-663`,
`src/screen.rs:111-155`). -/
def handsOut {σ : Type} : Call σ → List LockId
  | .tLockRead | .sLockRead => [.reader]
  | .tLockWrite => [.writer]
  | .sLockWrite => [.writer, .data]
  | _ => []

/-- The locks whose guard a call returns or not, depending on what others do. -/
def mayHandOut {σ : Type} : Call σ → List LockId
  | .tTryLockRead | .sTryLockRead => [.reader]
  | .tTryLockWrite => [.writer]
  | .sTryLockWrite => [.writer, .data]
  | _ => []

/-- The locks whose guard is given up by a call. -/
def handsBack {σ : Type} : Call σ → List LockId
  | .trDrop | .srDrop => [.reader]
  | .twDrop => [.writer]
  | .swDrop _ => [.writer, .data]
  | _ => []

/-- What a thread holds after a call, given what it held before: the guards it had, without the one it
dropped, and with the one it asked for. -/
def HeldAfter {σ : Type} (c : Call σ) (before after : LockId → Bool) : Prop :=
  (∀ l, after l = true ↔ (before l = true ∧ l ∉ handsBack c) ∨ l ∈ handsOut c) ∨
  (∀ l, after l = true ↔ before l = true ∨ l ∈ mayHandOut c)

/-- Thread `t` makes no call. -/
def NoCall {σ : Type} (t : Nat) (tr : List (Nat × Label σ)) : Prop := ∀ c, (t, .call c) ∉ tr

/-- Thread `t` waits for `l`, or is about to take it. -/
def Waits {σ : Type} (s : Sys σ) (t : Nat) (l : LockId) : Prop := ∃ k p, (s.thr t).code = .acq l k p

/-- Thread `t` waits for a lock that thread `t'` holds. -/
def WaitsFor {σ : Type} (s : Sys σ) (t t' : Nat) : Prop := ∃ l, Waits s t l ∧ (s.mx l).owner = some t'

/-- The threads in `T` wait for each other. -/
def Deadlock {σ : Type} (s : Sys σ) (T : Nat → Prop) : Prop :=
  (∃ t, T t) ∧ ∀ t, T t → ∃ t', T t' ∧ WaitsFor s t t'

/-- Thread `t'` is found by going from `t` to the thread it waits for, any number of times. -/
inductive WaitChain {σ : Type} (s : Sys σ) : Nat → Nat → Prop
  | one {t t' : Nat} : WaitsFor s t t' → WaitChain s t t'
  | more {t t' t'' : Nat} : WaitsFor s t t' → WaitChain s t' t'' → WaitChain s t t''

/-- The uses of the writer in an execution, with the threads. -/
def uses {σ : Type} : List (Nat × Label σ) → List (Nat × (σ → Outcome σ))
  | [] => []
  | (t, .use f) :: tr => (t, f) :: uses tr
  | _ :: tr => uses tr

/-- The writer after some uses, as far as they return. -/
def applyUses {σ : Type} : List (σ → Outcome σ) → σ → Option σ
  | [], w => some w
  | f :: fs, w => (f w).state.bind (applyUses fs)

/-- The writer's part of the result of a call on a screen. -/
def writerPart : Outcome Scr → Outcome WS
  | .ok s => .ok s.w
  | .err e s => .err e s.w
  | .stop h => .stop h

/-- What the methods of the crate do with the writer: calls of a write guard, the output of `prepare`
and `restore` (capabilities and texts), and the refresh of a screen. -/
inductive Writes (env : WEnv) : (WS → Outcome WS) → Prop
  | op (o : WOp) : Writes env (o.run env)
  | text (b : Bytes) : Writes env (writeBytes b)
  | cap (c : Cap) (ps : List Nat) : Writes env (expandOpt env c ps)
  | enter (z : Option Size) : Writes env (enterScreen env z)
  | exit : Writes env (exitScreen env)
  | seq {f g : WS → Outcome WS} : Writes env f → Writes env g → Writes env (fun w => f w >>? g)
  | refresh (u : UEnv) (d : SData) :
      Writes env (fun w => writerPart (({ d with w := w } : Scr).refresh u env))

end Mortal.Spec
