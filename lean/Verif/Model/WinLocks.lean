import Verif.Model.Locks
import Verif.Model.Win

/-!
# The locks of a terminal and of a screen on Windows

The calls of `Model/Locks.lean` with the code of `src/windows/terminal.rs` and `src/windows/screen.rs`.
A terminal has the locks `reader` and `writer` (`src/windows/terminal.rs:85-91`), a screen one for its
data (`src/windows/screen.rs:19-25`). As there, only the locks and what is done to the writer are kept.
The state of the writer is that of `Model/Win.lean`; what threads that read or prepare do on the
console's input, without the writer's lock or without the writer, is not part of the steps.
-/

namespace Mortal

/-- The drop of a `TerminalWriteGuard`, which has no destructor of its own
(`src/windows/terminal.rs:98-101`). -/
def Code.winDropW {σ : Type} (k : Code σ) : Code σ := .rel .writer k

/-- The drop of a `ScreenWriteGuard` (`src/windows/screen.rs:264-270`, fields in the order of 32-35); `f`
is the refresh. -/
def Code.winDropS {σ : Type} (f : σ → Outcome σ) (k : Code σ) : Code σ := .use f (.winDropW (.rel .data k))

/-- The reads of a screen's read guard (`src/windows/screen.rs:161-195`): if the event is a change of the
window's size, the screen's data are locked. -/
def Code.winSread {σ : Type} (k : Code σ) : Code σ := .either k (.lock .data (.rel .data k))

/-- What the calls do. The functions of calls that read are not used: reading does nothing to the
writer. (Methods: `src/windows/terminal.rs:123-321`, `src/windows/screen.rs:43-132`.) -/
def Call.winCode {σ : Type} : Call σ → Code σ
  -- `src/windows/terminal.rs:294-312`
  | .tLockRead => .acq .reader .done .done
  | .tLockWrite => .acq .writer .done .done
  | .tTryLockRead => .tryAcq .reader .done .done
  | .tTryLockWrite => .tryAcq .writer .done .done
  -- 163-220, 248-292 through 318-320
  | .tWrite f => .lock .writer (.use f (.winDropW .done))
  -- 230-246 through 314-316
  | .tWait => .lock .reader (.rel .reader .done)
  | .tRead _ => .lock .reader (.rel .reader .done)
  -- 222-228 with 343-349, 407-410
  | .tPrepare _ => .lock .reader (.lock .writer (.winDropW (.rel .reader .done)))
  -- 426-515
  | .trWait => .done
  | .trRead _ => .done
  -- 343-349, 407-410
  | .trPrepare _ => .lock .writer (.winDropW .done)
  -- 351-405, 412-423: the guard of the writer is not used
  | .trPrepareWithLock _ => .done
  | .trDrop => .rel .reader .done
  | .twWrite f => .use f .done
  | .twDrop => .winDropW .done
  -- `src/windows/screen.rs:72-80`
  | .sLockRead => .acq .reader .done .done
  | .sTryLockRead => .tryAcq .reader .done .done
  -- 82-85
  | .sLockWrite => .acq .writer (.acq .data .done .done) (.acq .data .done .done)
  -- 87-90; guards that do not end up in the result are dropped
  | .sTryLockWrite => .tryAcq .writer (.tryAcq .data .done (.winDropW .done))
      (.tryAcq .data (.rel .data .done) .done)
  -- 70, 100-102
  | .sDraw => .lock .data (.rel .data .done)
  -- 96-98, 129-131: an error of `lock_write` contains both guards
  | .sRefresh f g => .acq .writer (.acq .data (.use f (.winDropS g .done)) .panic) (.acq .data .panic .panic)
  -- 108-110
  | .sSetCursorMode f => .lock .writer (.use f (.winDropW .done))
  -- 112-127
  | .sWait => .lock .reader (.rel .reader .done)
  | .sRead _ => .lock .reader (.winSread (.rel .reader .done))
  -- 157-195
  | .srWait => .done
  | .srRead _ => .winSread .done
  | .srDrop => .rel .reader .done
  -- 204-244
  | .swDraw => .done
  | .swWrite f => .use f .done
  | .swDrop f => .winDropS f .done

/-- What a panicking thread still does: its guards are dropped. (`f` is the refresh in the drop of a
screen's write guard; a terminal's write guard does nothing.) (`src/windows/screen.rs:264-270`.) -/
def winUnwindCode {σ : Type} (f : σ → Outcome σ) (holds : LockId → Bool) : Code σ :=
  let r := if holds .reader then .rel .reader .done else .done
  let d := if holds .data then .rel .data r else r
  if holds .writer then (if holds .data then .use f (.winDropW d) else .winDropW d) else d

/-- The implementation for Windows. (`src/windows/terminal.rs:85-103`.) -/
instance : LockEnv WTerm WinSt := ⟨fun _ => Call.winCode, fun _ => winUnwindCode⟩

/-- A call of a write guard, as a function on the writer. (For `src/windows/terminal.rs:572-930`.) -/
def WM.outcome (m : WM Unit) (s : WinSt) : Outcome WinSt :=
  match m s with
  | .ok _ s' => .ok s'
  | .err e s' => .err e s'
  | .stop w => .stop w

end Mortal
