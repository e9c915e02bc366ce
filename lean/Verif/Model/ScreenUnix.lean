import Verif.Model.Screen
import Verif.Model.Unix

/-!
# `src/unix/screen.rs`: `Screen` as a whole

Opening and dropping a screen, reading events from it and the write guard, on top of the model of
the operating system in `Model/Unix.lean`. Everything runs in one thread here; what the locks do is
the subject of `Model/Locks.lean`. Writing to standard error (`eprintln!`) is taken to succeed and
to have no effect.
-/

namespace Mortal

/-- `src/unix/terminal.rs:707-730` `enter_screen`, with its call of `size`. -/
def enterM (env : REnv) : M Unit :=
  match env.w.db .changeScrollRegion, env.w.db .cursorHome with
  | some _, some _ => do
    let size ← getWinsize
    liftW (enterScreen env.w (some size))
  | _, _ => liftW (enterScreen env.w none)

/-- `src/unix/terminal.rs:165-167` `Terminal::enter_screen`. -/
def termEnter (env : REnv) : M Unit := withWriter env (enterM env)

/-- `src/unix/terminal.rs:169-171` `Terminal::exit_screen`. -/
def termExit (env : REnv) : M Unit := withWriter env (liftW (exitScreen env.w))

/-- `src/unix/terminal.rs:225-227` `Terminal::set_cursor_mode`. -/
def termCursorMode (env : REnv) (m : CursorMode) : M Unit :=
  withWriter env (liftW (setCursorMode env.w m))

/-- Print an error and carry on. (`src/unix/screen.rs:132-134`, 230-232.) -/
def printErr (m : M Unit) : M Unit := fun s =>
  match m s with
  | .ok _ s' => .ok () s'
  | .err _ s' => .ok () s'
  | .stop w => .stop w

/-- `src/unix/terminal.rs:300-310` `Drop for Terminal`. (Closing the descriptor is not modelled.) -/
def termDrop (env : REnv) : M Unit := printErr (termCursorMode env .normal)

/-- `src/unix/screen.rs:124-136` `Drop for Screen`, then the drop of its field `term`. -/
def screenDrop (env : REnv) (st : PrepareState) : M Unit := do
  printErr (do
    restore env st
    termExit env)
  termDrop env

/-- `src/unix/screen.rs:12-17` `Screen`, apart from the terminal. -/
structure ScreenU where
  data : SData
  state : PrepareState
deriving DecidableEq

/-- Run `m`; if it fails, run the destructor `d` before returning the error. (`src/unix/screen.rs:53`.) -/
def orDrop {α : Type} (m : M α) (d : M Unit) : M α := fun s =>
  match m s with
  | .err e s' => (do d; throwIo e : M α) s'
  | r => r

/-- `src/unix/screen.rs:37-55` `Screen::new`. When a step fails, what exists by then is dropped:
the terminal, or the screen. -/
def screenNew (env : REnv) (cfg : PrepareConfig) : M ScreenU := do
  let size ← orDrop (termSize env) (termDrop env)
  let state ← orDrop (prepare env cfg) (termDrop env)
  orDrop (termEnter env) (screenDrop env state)
  pure { data := .new size, state := state }

/-- `src/unix/screen.rs:147-155` `ScreenReadGuard::read_event`: the event, and the screen's data
afterwards (on an error they are unchanged). -/
def screenReadEvent (env : REnv) (t : Option Nat) (d : SData) : M (Option Event × SData) := do
  let r ← readEvent env t
  match r with
  | some (.resize size) =>
    match d.updateSize size with
    | none => panicM
    | some d => pure (r, d)
  | _ => pure (r, d)

/-- `src/unix/screen.rs:157-165` `ScreenReadGuard::read_raw`. -/
def screenReadRaw (env : REnv) (len : Nat) (t : Option Nat) (d : SData) : M (InRes × SData) := do
  let r ← readRaw env len t
  match r with
  | .event (.resize size) =>
    match d.updateSize size with
    | none => panicM
    | some d => pure (r, d)
  | _ => pure (r, d)

/-- The methods of a write guard (`src/unix/screen.rs:174-210`). Drawing calls are those of the
buffer (`forward_screen_buffer_mut_methods!`). -/
inductive GOp
  | draw (op : BufOp)
  | refresh
  | setCursorMode (m : CursorMode)

/-- A call on a write guard. (`src/unix/screen.rs:168-225`.) -/
def GOp.run (u : UEnv) (env : WEnv) : GOp → Scr → Outcome Scr
  | .draw op, s =>
    match op.run u s.buf with
    | none => .stop .panic
    | some b => .ok { s with buf := b }
  | .refresh, s => s.refresh u env
  | .setCursorMode m, s => s.onW (Mortal.setCursorMode env m)

/-- `src/unix/screen.rs:228-234` `Drop for ScreenWriteGuard`, then the drop of its field `writer`
(`src/unix/terminal.rs:1049-1055`). -/
def guardDrop (u : UEnv) (env : WEnv) (s : Scr) : Outcome Scr :=
  match s.refresh u env with
  | .ok s' => s'.onW (WOp.sessionEnd.run env)
  | .err _ s' => s'.onW (WOp.sessionEnd.run env)
  | .stop h => .stop h

/-- `src/unix/screen.rs:119-121` `Screen::refresh`: the guard is dropped after the call. -/
def refreshCall (u : UEnv) (env : WEnv) (s : Scr) : Outcome Scr :=
  match s.refresh u env with
  | .ok s' => guardDrop u env s'
  | .err e s' => guardDrop u env s' >>? fun s'' => .err e s''
  | .stop h => .stop h

/-- A guard held for some calls, by a program that carries on after errors, and then dropped.
(`src/unix/screen.rs:168-234`.) -/
def guardSession (u : UEnv) (env : WEnv) : List GOp → Scr → Outcome Scr
  | [], s => guardDrop u env s
  | op :: ops, s =>
    match op.run u env s with
    | .ok s' => guardSession u env ops s'
    | .err _ s' => guardSession u env ops s'
    | .stop h => .stop h

end Mortal
