import Verif.Model.Writer

/-!
# The locks of a terminal and of a screen

`Terminal` has a lock for reading and one for writing (`src/unix/terminal.rs:66-74`), a `Screen` adds
one for its data (`src/unix/screen.rs:12-17`). First the functions of `src/priv_util.rs` that combine
lock results, then a transition system in which any number of threads call methods of one terminal or
screen and of the guards they have.

A mutex is `std::sync::Mutex`: locking one the thread already holds blocks for ever (the
documentation leaves open whether it does that or panics). Only what the methods do to the locks and
to the terminal's writer is kept; what a thread computes or reads in between is not. The functions
given to the writer are arbitrary.
-/

namespace Mortal

/-! ## `src/priv_util.rs` -/

/-- `std::sync::LockResult`. (For `src/priv_util.rs:22-48`.) -/
inductive LockRes (α : Type)
  | ok (a : α)
  | poisoned (a : α)
deriving DecidableEq

/-- `std::sync::TryLockResult`. (For `src/priv_util.rs:30-65`.) -/
inductive TryRes (α : Type)
  | ok (a : α)
  | poisoned (a : α)
  | wouldBlock
deriving DecidableEq

/-- `src/priv_util.rs:22-28` `map_lock_result`. -/
def mapLockResult {α β : Type} (r : LockRes α) (f : α → β) : LockRes β :=
  match r with
  | .ok t => .ok (f t)
  | .poisoned t => .poisoned (f t)

/-- `src/priv_util.rs:30-38` `map_try_lock_result`. -/
def mapTryLockResult {α β : Type} (r : TryRes α) (f : α → β) : TryRes β :=
  match r with
  | .ok t => .ok (f t)
  | .poisoned t => .poisoned (f t)
  | .wouldBlock => .wouldBlock

/-- `src/priv_util.rs:40-48` `map2_lock_result`. -/
def map2LockResult {α β γ : Type} (r : LockRes α) (r2 : LockRes β) (f : α → β → γ) : LockRes γ :=
  match r, r2 with
  | .ok a, .ok b => .ok (f a b)
  | .ok a, .poisoned b => .poisoned (f a b)
  | .poisoned a, .ok b => .poisoned (f a b)
  | .poisoned a, .poisoned b => .poisoned (f a b)

/-- `src/priv_util.rs:50-65` `map2_try_lock_result`. -/
def map2TryLockResult {α β γ : Type} (r : TryRes α) (r2 : TryRes β) (f : α → β → γ) : TryRes γ :=
  match r, r2 with
  | .ok a, .ok b => .ok (f a b)
  | .wouldBlock, _ => .wouldBlock
  | _, .wouldBlock => .wouldBlock
  | .ok a, .poisoned b => .poisoned (f a b)
  | .poisoned a, .ok b => .poisoned (f a b)
  | .poisoned a, .poisoned b => .poisoned (f a b)

/-- A mutex: whether somebody holds it, and whether it is poisoned. (For `src/unix/terminal.rs:72-73`.) -/
structure Mutex where
  held : Bool
  poisoned : Bool
deriving DecidableEq

/-- A guard of the mutex with this name. (For `src/unix/terminal.rs:77-85`.) -/
structure MGuard where
  name : Bool
deriving DecidableEq

/-- `std::sync::Mutex::lock`; `none`: the call blocks. (For `src/unix/terminal.rs:271-279`.) -/
def Mutex.lock (name : Bool) (m : Mutex) : Option (LockRes MGuard × Mutex) :=
  if m.held then none
  else some (if m.poisoned then .poisoned ⟨name⟩ else .ok ⟨name⟩, { m with held := true })

/-- `std::sync::Mutex::try_lock`. (For `src/unix/terminal.rs:281-289`.) -/
def Mutex.tryLock (name : Bool) (m : Mutex) : TryRes MGuard × Mutex :=
  if m.held then (.wouldBlock, m)
  else (if m.poisoned then .poisoned ⟨name⟩ else .ok ⟨name⟩, { m with held := true })

/-- The drop of a guard by a thread that is not panicking. (For `src/unix/terminal.rs:77-85`.) -/
def Mutex.unlock (m : Mutex) : Mutex := { m with held := false }

/-- `src/unix/screen.rs:77-80` `Screen::lock_write` when no other thread does anything meanwhile: the
guards end up in the result. The terminal's lock has the name `false`, the data's `true`. -/
def lockWriteCall (w d : Mutex) : Option (LockRes (MGuard × MGuard) × Mutex × Mutex) := do
  let (r, w) ← w.lock false
  let (r2, d) ← d.lock true
  pure (map2LockResult (mapLockResult r id) r2 Prod.mk, w, d)

/-- The guard a result of `try_lock` contains. (For `src/priv_util.rs:30-65`.) -/
def TryRes.guard {α : Type} : TryRes α → Option α
  | .ok a => some a
  | .poisoned a => some a
  | .wouldBlock => none

/-- `src/unix/screen.rs:82-85` `Screen::try_lock_write`. Both arguments are evaluated; guards that do
not end up in the result are dropped when `map2_try_lock_result` returns. -/
def tryLockWriteCall (w d : Mutex) : TryRes (MGuard × MGuard) × Mutex × Mutex :=
  let (r, w) := w.tryLock false
  let (r2, d) := d.tryLock true
  let res := map2TryLockResult (mapTryLockResult r id) r2 Prod.mk
  match res.guard with
  | some _ => (res, w, d)
  | none =>
    (res, if r.guard.isSome then w.unlock else w, if r2.guard.isSome then d.unlock else d)

/-! ## Threads

The state of the writer has the type `σ`: `WS` on Unix, and on Windows see `Model/WinLocks.lean`. -/

/-- The three locks: `Terminal::reader`, `Terminal::writer` and `Screen::writer`.
(`src/unix/terminal.rs:66-74`, `src/unix/screen.rs:12-17`.) -/
inductive LockId
  | reader | writer | data
deriving DecidableEq, Repr

/-- What a call still has to do, as far as locks and the writer are concerned.
(For `src/unix/terminal.rs:101-310`, `src/unix/screen.rs:36-136`.) -/
inductive Code (σ : Type)
  /-- The call has returned. -/
  | done
  /-- `lock()`, then one or the other, depending on whether the lock is poisoned. -/
  | acq (l : LockId) (k : Code σ) (poisoned : Code σ)
  /-- `try_lock()`: the lock was taken (poisoned or not), or would block. -/
  | tryAcq (l : LockId) (yes no : Code σ)
  /-- The drop of a mutex guard. -/
  | rel (l : LockId) (k : Code σ)
  /-- A function is applied to the terminal's writer. -/
  | use (f : σ → Outcome σ) (k : Code σ)
  /-- One or the other, depending on something not modelled. -/
  | either (a b : Code σ)
  /-- The thread panics. -/
  | panic

/-- `lock().expect(..)`. (`src/unix/terminal.rs:291-297`, `src/unix/screen.rs:87-97`.) -/
def Code.lock {σ : Type} (l : LockId) (k : Code σ) : Code σ := .acq l k .panic

/-- The drop of a `TerminalWriteGuard` (`src/unix/terminal.rs:1049-1055`). -/
def Code.dropW (env : WEnv) (k : Code WS) : Code WS := .use (WOp.sessionEnd.run env) (.rel .writer k)

/-- The drop of a `ScreenWriteGuard` (`src/unix/screen.rs:228-234`, fields in the order of 25-28);
`f` is the refresh. -/
def Code.dropS (env : WEnv) (f : WS → Outcome WS) (k : Code WS) : Code WS :=
  .use f (.dropW env (.rel .data k))

/-- `src/unix/terminal.rs:604-628` `handle_signal`, `resume`, with what comes before and after a
signal: nothing; the size is asked for (670-672, through 149-151), and `next` is done with it; or the
terminal is prepared again (317-320), where `f` is what is written. -/
def Code.handle (env : WEnv) (f : WS → Outcome WS) (next : Code WS) (k : Code WS) : Code WS :=
  .either k (.either (.lock .writer (.dropW env next)) (.lock .writer (.use f (.dropW env k))))

/-- The calls. `t…` are methods of a terminal, `s…` of a screen, `tr…`, `tw…`, `sr…`, `sw…` of their
read and write guards. (Methods: `src/unix/terminal.rs:101-310`, `src/unix/screen.rs:36-240`.) -/
inductive Call (σ : Type)
  | tLockRead | tLockWrite | tTryLockRead | tTryLockWrite
  /-- `size`, output and cursor methods (149-151, 165-171, 189-270). -/
  | tWrite (f : σ → Outcome σ)
  /-- `wait_event` (153). -/
  | tWait
  /-- `read_event`, `read_raw` (157-163). -/
  | tRead (f : σ → Outcome σ)
  /-- `prepare`, `restore` (173-179). -/
  | tPrepare (f : σ → Outcome σ)
  | trWait
  | trRead (f : σ → Outcome σ)
  | trPrepare (f : σ → Outcome σ)
  /-- `prepare_with_lock`, `restore_with_lock` (322, 419). -/
  | trPrepareWithLock (f : σ → Outcome σ)
  | trDrop
  | twWrite (f : σ → Outcome σ)
  | twDrop
  | sLockRead | sLockWrite | sTryLockRead | sTryLockWrite
  /-- The methods that only need the buffer (`src/unix/screen.rs:65`). -/
  | sDraw
  | sRefresh (f g : σ → Outcome σ)
  | sSetCursorMode (f : σ → Outcome σ)
  | sWait
  | sRead (f : σ → Outcome σ)
  | srWait
  | srRead (f : σ → Outcome σ)
  | srDrop
  | swDraw
  | swWrite (f : σ → Outcome σ)
  | swDrop (f : σ → Outcome σ)

/-- The reads of a screen's read guard (`src/unix/screen.rs:147-165`). -/
def Code.sread (env : WEnv) (f : WS → Outcome WS) (k : Code WS) : Code WS :=
  .handle env f (.lock .data (.rel .data k)) k

/-- What the calls do. (Methods: `src/unix/terminal.rs:101-310`, `src/unix/screen.rs:36-240`.) -/
def Call.code (env : WEnv) : Call WS → Code WS
  -- `src/unix/terminal.rs:271-289`
  | .tLockRead => .acq .reader .done .done
  | .tLockWrite => .acq .writer .done .done
  | .tTryLockRead => .tryAcq .reader .done .done
  | .tTryLockWrite => .tryAcq .writer .done .done
  -- 291-297 with the methods named above
  | .tWrite f => .lock .writer (.use f (.dropW env .done))
  | .tWait => .lock .reader (.rel .reader .done)
  | .tRead f => .lock .reader (.handle env f (.rel .reader .done) (.rel .reader .done))
  | .tPrepare f => .lock .reader (.lock .writer (.use f (.dropW env (.rel .reader .done))))
  | .trWait => .done
  | .trRead f => .handle env f .done .done
  -- 317-320, 414-417
  | .trPrepare f => .lock .writer (.use f (.dropW env .done))
  | .trPrepareWithLock f => .use f .done
  | .trDrop => .rel .reader .done
  | .twWrite f => .use f .done
  | .twDrop => .dropW env .done
  -- `src/unix/screen.rs:67-75`
  | .sLockRead => .acq .reader .done .done
  | .sTryLockRead => .tryAcq .reader .done .done
  -- 77-80
  | .sLockWrite => .acq .writer (.acq .data .done .done) (.acq .data .done .done)
  -- 82-85
  | .sTryLockWrite => .tryAcq .writer (.tryAcq .data .done (.dropW env .done))
      (.tryAcq .data (.rel .data .done) .done)
  -- 95-97
  | .sDraw => .lock .data (.rel .data .done)
  -- 119-121
  | .sRefresh f g => .acq .writer (.acq .data (.use f (.dropS env g .done)) .panic) (.acq .data .panic .panic)
  -- 103-105
  | .sSetCursorMode f => .lock .writer (.use f (.dropW env .done))
  -- 107-117
  | .sWait => .lock .reader (.rel .reader .done)
  | .sRead f => .lock .reader (.sread env f (.rel .reader .done))
  -- 143-165
  | .srWait => .done
  | .srRead f => .sread env f .done
  | .srDrop => .rel .reader .done
  -- 174-210
  | .swDraw => .done
  | .swWrite f => .use f .done
  | .swDrop f => .dropS env f .done

/-- A mutex of the transition system: which thread holds it, and whether it is poisoned.
(For `src/unix/terminal.rs:66-74`.) -/
structure Mx where
  owner : Option Nat
  poisoned : Bool

/-- A thread: what it still has to do in the current call, and whether it is panicking.
(Not code of the crate; the threads of a program that calls `src/unix/terminal.rs:101-310`.) -/
structure Thr (σ : Type) where
  code : Code σ
  panicking : Bool

/-- The whole system; threads are numbered. (For `src/unix/terminal.rs:66-74`, `src/unix/screen.rs:12-17`.) -/
structure Sys (σ : Type) where
  mx : LockId → Mx
  thr : Nat → Thr σ
  ws : σ

/-- Nobody holds a lock or does anything. (After `src/unix/terminal.rs:102-119`.) -/
def Sys.init {σ : Type} (ws : σ) : Sys σ :=
  { mx := fun _ => ⟨none, false⟩, thr := fun _ => ⟨.done, false⟩, ws := ws }

/-- Thread `t` holds `l`. (For `src/unix/terminal.rs:77-85`.) -/
def Sys.holds {σ : Type} (s : Sys σ) (t : Nat) (l : LockId) : Bool := decide ((s.mx l).owner = some t)

/-- Thread `t` goes on with `c`. (Not code of the crate; see `src/unix/terminal.rs:101-310`.) -/
def Sys.goto {σ : Type} (s : Sys σ) (t : Nat) (c : Code σ) : Sys σ :=
  { s with thr := fun i => if i = t then { s.thr t with code := c } else s.thr i }

/-- The owner of `l` changes. (For `src/unix/terminal.rs:271-289`.) -/
def Sys.setOwner {σ : Type} (s : Sys σ) (l : LockId) (o : Option Nat) (p : Bool) : Sys σ :=
  { s with mx := fun i => if i = l then ⟨o, p⟩ else s.mx i }

/-- Thread `t` starts to panic. (For the `expect`s, `src/unix/terminal.rs:291-297`.) -/
def Sys.unwind {σ : Type} (s : Sys σ) (t : Nat) (c : Code σ) : Sys σ :=
  { s with thr := fun i => if i = t then ⟨c, true⟩ else s.thr i }

/-- What a panicking thread still does: its guards are dropped. (`f` is the refresh in the drop of a
screen's write guard.) (`src/unix/terminal.rs:1049-1055`, `src/unix/screen.rs:228-234`.) -/
def unwindCode (env : WEnv) (f : WS → Outcome WS) (holds : LockId → Bool) : Code WS :=
  let r := if holds .reader then .rel .reader .done else .done
  let d := if holds .data then .rel .data r else r
  if holds .writer then .use f (.dropW env d) else d

/-- What differs between the implementations: the code of the calls, and what a panicking thread still
does. (This is not a part of the crate; the instances are.) -/
class LockEnv (ε : Type) (σ : outParam Type) where
  code : ε → Call σ → Code σ
  unwind : ε → (σ → Outcome σ) → (LockId → Bool) → Code σ

/-- The implementation for Unix. (`src/unix/terminal.rs:66-310`.) -/
instance : LockEnv WEnv WS := ⟨Call.code, unwindCode⟩

/-- What a step does, as far as others can see. (For `src/unix/terminal.rs:101-310`.) -/
inductive Label (σ : Type)
  | call (c : Call σ)
  | acq (l : LockId)
  | rel (l : LockId)
  | use (f : σ → Outcome σ)
  | crash
  | tau

/-- The steps of thread `t`. A thread that is not in a call may make any call that `may` allows for
the locks it holds. (For `src/unix/terminal.rs:101-310`, `src/unix/screen.rs:36-240`.) -/
inductive LStep {ε σ : Type} [LockEnv ε σ] (env : ε) (may : (LockId → Bool) → Call σ → Prop) (t : Nat) : Sys σ → Label σ → Sys σ → Prop
  | call {s : Sys σ} {c : Call σ} : s.thr t = ⟨.done, false⟩ → may (s.holds t) c →
      LStep env may t s (.call c) (s.goto t (LockEnv.code env c))
  | acq {s : Sys σ} {l : LockId} {k p : Code σ} : (s.thr t).code = .acq l k p → (s.mx l).owner = none →
      LStep env may t s (.acq l)
        ((s.setOwner l (some t) (s.mx l).poisoned).goto t (if (s.mx l).poisoned then p else k))
  | tryYes {s : Sys σ} {l : LockId} {y n : Code σ} : (s.thr t).code = .tryAcq l y n →
      (s.mx l).owner = none →
      LStep env may t s (.acq l) ((s.setOwner l (some t) (s.mx l).poisoned).goto t y)
  | tryNo {s : Sys σ} {l : LockId} {y n : Code σ} : (s.thr t).code = .tryAcq l y n →
      (s.mx l).owner ≠ none → LStep env may t s .tau (s.goto t n)
  | rel {s : Sys σ} {l : LockId} {k : Code σ} : (s.thr t).code = .rel l k →
      LStep env may t s (.rel l)
        ((s.setOwner l none ((s.mx l).poisoned || (s.thr t).panicking)).goto t k)
  | use {s : Sys σ} {f : σ → Outcome σ} {k : Code σ} {w : σ} : (s.thr t).code = .use f k →
      (f s.ws).state = some w → LStep env may t s (.use f) { s.goto t k with ws := w }
  | left {s : Sys σ} {a b : Code σ} : (s.thr t).code = .either a b → LStep env may t s .tau (s.goto t a)
  | right {s : Sys σ} {a b : Code σ} : (s.thr t).code = .either a b → LStep env may t s .tau (s.goto t b)
  /-- A thread may panic anywhere, once. -/
  | crash {s : Sys σ} {f : σ → Outcome σ} : (s.thr t).panicking = false →
      LStep env may t s .crash (s.unwind t (LockEnv.unwind env f (s.holds t)))

/-- Executions, with the steps taken. (For `src/unix/terminal.rs:101-310`, `src/unix/screen.rs:36-240`.) -/
inductive Exec {ε σ : Type} [LockEnv ε σ] (env : ε) (may : (LockId → Bool) → Call σ → Prop) : Sys σ → List (Nat × Label σ) → Sys σ → Prop
  | nil (s : Sys σ) : Exec env may s [] s
  | cons {s s' s'' : Sys σ} {t : Nat} {a : Label σ} {tr : List (Nat × Label σ)} :
      LStep env may t s a s' → Exec env may s' tr s'' → Exec env may s ((t, a) :: tr) s''

end Mortal
