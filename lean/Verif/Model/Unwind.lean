import Verif.Model.Locks
import Verif.Model.ScreenUnix
import Verif.Model.WinScreen

/-!
# Panics: poisoned locks, and what destructors do then

`src/unix/screen.rs:124-136`, `src/windows/screen.rs:134-147` and the drops of terminals once more, now
with the locks they take by `lock().expect(..)` (`src/unix/terminal.rs:291-297`,
`src/windows/terminal.rs:314-320`, `src/unix/screen.rs:87-97`). A lock is poisoned when a guard of it is
dropped by a thread that panics; a panic in a thread that panics already aborts the process (the
rule of `std` for destructors run by a panic; newer versions of it run the inner destructors before
they abort). The system calls and the output are those of `Model/Unix.lean` and `Model/Win.lean`. A
panic there (`stop`) is not followed any further: these models do not say in which state it leaves
things.
-/

namespace Mortal

/-- The state of the process, which locks are poisoned, and whether this thread is panicking.
(For `src/unix/screen.rs:124-136`.) -/
structure PSt (σ : Type) where
  st : σ
  poisoned : LockId → Bool
  panicking : Bool

/-- How code ends that may panic: `panic` has unwound to the caller, `abort` has ended the process.
(For `src/unix/screen.rs:124-136`.) -/
inductive PRes (σ α : Type)
  | ok (a : α) (s : PSt σ)
  | err (e : IoErr) (s : PSt σ)
  | panic (s : PSt σ)
  | abort (s : PSt σ)
  | stop (w : Stop)

/-- Code that may panic. (For `src/unix/screen.rs:124-136`.) -/
def PM (σ α : Type) := PSt σ → PRes σ α

/-- The `?` and the panics of `src/unix/screen.rs:124-136`. -/
instance (σ : Type) : Monad (PM σ) where
  pure a := fun s => .ok a s
  bind m f := fun s =>
    match m s with
    | .ok a s' => f a s'
    | .err e s' => .err e s'
    | .panic s' => .panic s'
    | .abort s' => .abort s'
    | .stop w => .stop w

/-- `panic!`. (By `expect`, `src/unix/terminal.rs:291-297`.) -/
def raise {σ α : Type} : PM σ α := fun s =>
  if s.panicking then .abort s else .panic { s with panicking := true }

/-- The lock `l` becomes poisoned. (For `src/unix/terminal.rs:66-74`.) -/
def PSt.poison {σ : Type} (l : LockId) (s : PSt σ) : PSt σ :=
  { s with poisoned := fun i => if i = l then true else s.poisoned i }

/-- `lock().expect(..)`, then `m`, then the drop of the guard. (The guard in the error of a poisoned
lock is dropped too.) (`src/unix/terminal.rs:291-297`, `src/unix/screen.rs:87-97`.) -/
def withLock {σ α : Type} (l : LockId) (m : PM σ α) : PM σ α := fun s =>
  if s.poisoned l then raise s
  else
    match m s with
    | .panic s' => .panic (s'.poison l)
    | r => r

/-- Print an error and carry on. (`src/unix/screen.rs:132-134`, `src/unix/terminal.rs:302-304`.) -/
def printP {σ : Type} (m : PM σ Unit) : PM σ Unit := fun s =>
  match m s with
  | .err _ s' => .ok () s'
  | r => r

/-- The drop `m` of a value and that of its field, `d`, which is done also if the first panics.
(`Screen` and its field `term`, `src/unix/screen.rs:12-17`, 124-136.) -/
def dropWith {σ : Type} (m d : PM σ Unit) : PM σ Unit := fun s =>
  match m s with
  | .ok _ s' => d s'
  | .err _ s' => d s'
  | .panic s' =>
    match d s' with
    | .ok _ s'' => .panic s''
    | .err _ s'' => .panic s''
    | r => r
  | r => r

/-- The state in which a panicking thread has dropped the guards of the locks `held`; doing so has led
to the state `st`. (For `src/unix/terminal.rs:1049-1055`, `src/unix/screen.rs:228-234`.) -/
def PSt.unwound {σ : Type} (s : PSt σ) (held : LockId → Bool) (st : σ) : PSt σ :=
  { st := st, poisoned := fun l => s.poisoned l || held l, panicking := true }

/-! ## Unix -/

/-- Code of `Model/Unix.lean`. (For `src/unix/screen.rs:124-136`.) -/
def ofM {α : Type} (m : M α) : PM US α := fun s =>
  match m s.st with
  | .ok a s' => .ok a { s with st := s' }
  | .err e s' => .err e { s with st := s' }
  | .stop w => .stop w

/-- `src/unix/terminal.rs:177-179`, `414-417`: `Terminal::restore` takes both locks. -/
def restoreP (env : REnv) (st : PrepareState) : PM US Unit :=
  withLock .reader (withLock .writer (ofM (restore env st)))

/-- `src/unix/terminal.rs:169-171` `Terminal::exit_screen`. -/
def termExitP (env : REnv) : PM US Unit := withLock .writer (ofM (termExit env))

/-- `src/unix/terminal.rs:300-310` `Drop for Terminal`, through 225-227. -/
def termDropP (env : REnv) : PM US Unit :=
  printP (withLock .writer (ofM (termCursorMode env .normal)))

/-- `src/unix/screen.rs:124-136` `Drop for Screen`, then the drop of its field `term`. -/
def screenDropP (env : REnv) (st : PrepareState) : PM US Unit :=
  dropWith (printP (do
    restoreP env st
    termExitP env)) (termDropP env)

/-- A thread that owns a screen with data `d` panics while it holds the locks `held`: its guards are
dropped (`src/unix/screen.rs:228-234`), which poisons their locks, then the screen. -/
def panicDrop (u : UEnv) (env : REnv) (st : PrepareState) (held : LockId → Bool) (d : SData) :
    PM US Unit := fun s =>
  match (if held .writer then guardDrop u env.w { d with w := s.st.w } else .ok { d with w := s.st.w }) with
  | .ok x => screenDropP env st (s.unwound held { s.st with w := x.w })
  | .err _ x => screenDropP env st (s.unwound held { s.st with w := x.w })
  | .stop w => .stop w

/-! ## Windows -/

/-- Code of `Model/Win.lean`. (For `src/windows/screen.rs:134-147`.) -/
def ofW {α : Type} (m : WM α) : PM WinSt α := fun s =>
  match m s.st with
  | .ok a s' => .ok a { s with st := s' }
  | .err e s' => .err e { s with st := s' }
  | .stop w => .stop w

/-- `src/windows/terminal.rs:323-336` `Drop for Terminal`: two uses of the write lock. -/
def winTermDropP (t : WTerm) : PM WinSt Unit :=
  printP (do
    withLock .writer (ofW (winCursorMode .normal))
    withLock .writer (ofW (do setConsoleMode (← SM.get).outH t.oldOut)))

/-- `src/windows/screen.rs:134-147` `Drop for Screen`, then the drop of its field `term`.
`Terminal::restore` takes both locks (`src/windows/terminal.rs:226-228`, `407-410`), `exit_screen` one. -/
def winScreenDropP (t : WTerm) (x : WScreen) : PM WinSt Unit :=
  dropWith (printP (do
    withLock .reader (withLock .writer (ofW (winRestore t x.state)))
    withLock .writer (ofW (winExitScreen x.old)))) (winTermDropP t)

/-- A thread that owns a screen with data `d` panics while it holds the locks `held`; see `panicDrop`.
The guard's drop: `src/windows/screen.rs:264-270`. -/
def winPanicDrop (u : UEnv) (t : WTerm) (x : WScreen) (held : LockId → Bool) (d : SData) :
    PM WinSt Unit := fun s =>
  match (if held .writer then wsGuardDrop u t { d with w := s.st } else .ok () { d with w := s.st }) with
  | .ok _ y => winScreenDropP t x (s.unwound held y.w)
  | .err _ y => winScreenDropP t x (s.unwound held y.w)
  | .stop w => .stop w

end Mortal
