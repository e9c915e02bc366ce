import Verif.Model.Input
import Verif.Model.SignalSet
import Verif.Model.Writer

/-!
# `src/unix/terminal.rs`: `Reader`, `TerminalReadGuard`, signals, `prepare` and `restore`

The operating system is a schedule: a list of steps, one consumed by every system call and by every
access to `LAST_SIGNAL`. A step says which signals arrive just before the operation, whether the
terminal's window has changed its size by then, and what the operation answers. So a theorem about all schedules is a theorem about all interleavings of signals,
input and failures. An exhausted schedule means the call is still waiting.

The fields `received`, `seen` and `waited` of the state are not part of the code; they record what
`read(2)` has returned, which signals the handler has been called for, and the time spent in
`select(2)`.
-/

namespace Mortal

/-- The signals the crate handles. (`src/unix/terminal.rs:1370-1379`.) -/
inductive Sig
  | cont | winch | int | tstp | quit
deriving DecidableEq, Repr

/-- Signal numbers (Linux). (For `src/unix/terminal.rs:1366-1379`.) -/
def Sig.num : Sig → Nat
  | .cont => 18 | .winch => 28 | .int => 2 | .tstp => 20 | .quit => 3

/-- `src/unix/terminal.rs:1370-1379` `conv_signal` (numbers of Linux). -/
def convSignal (n : Nat) : Option Signal :=
  if n = 18 then some .continue
  else if n = 2 then some .interrupt
  else if n = 3 then some .quit
  else if n = 20 then some .suspend
  else if n = 28 then some .resize
  else none

/-- The disposition of a signal: this crate's handler, or anything else.
(For `src/unix/terminal.rs:384-406`.) -/
inductive Disp
  | ours | other (n : Nat)
deriving DecidableEq, Repr

/-- Dispositions of the five signals. (For `src/unix/terminal.rs:384-406`.) -/
structure SigTab where
  cont : Disp
  winch : Disp
  int : Disp
  tstp : Disp
  quit : Disp
deriving DecidableEq, Repr

/-- The disposition of `s`. (For `src/unix/terminal.rs:384-406`.) -/
def SigTab.get (t : SigTab) : Sig → Disp
  | .cont => t.cont | .winch => t.winch | .int => t.int | .tstp => t.tstp | .quit => t.quit

/-- The table with another disposition for `s`. (For `src/unix/terminal.rs:395-405`, 436-450.) -/
def SigTab.set (t : SigTab) (s : Sig) (d : Disp) : SigTab :=
  match s with
  | .cont => { t with cont := d }
  | .winch => { t with winch := d }
  | .int => { t with int := d }
  | .tstp => { t with tstp := d }
  | .quit => { t with quit := d }

/-- `termios(3)` with the flag words of Linux; `other` stands for everything the crate does not
touch (other control characters, speeds). (For `src/unix/terminal.rs:326-374`.) -/
structure Termios where
  iflag : BitVec 32
  oflag : BitVec 32
  cflag : BitVec 32
  lflag : BitVec 32
  vmin : Nat
  vtime : Nat
  other : Nat
deriving DecidableEq, Repr

/-- `termios(3)`. (`src/unix/terminal.rs:343`.) -/
def INLCR : BitVec 32 := 0x40#32
/-- `termios(3)`. (`src/unix/terminal.rs:343`.) -/
def ICRNL : BitVec 32 := 0x100#32
/-- `termios(3)`. (`src/unix/terminal.rs:364-366`.) -/
def IXON : BitVec 32 := 0x400#32
/-- `termios(3)`. (`src/unix/terminal.rs:357-359`.) -/
def ISIG : BitVec 32 := 0x1#32
/-- `termios(3)`. (`src/unix/terminal.rs:351`.) -/
def ICANON : BitVec 32 := 0x2#32
/-- `termios(3)`. (`src/unix/terminal.rs:351`.) -/
def ECHO : BitVec 32 := 0x8#32

/-- `src/terminal.rs:392-446` `PrepareConfig`. -/
structure PrepareConfig where
  blockSignals : Bool
  enableControlFlow : Bool
  enableKeypad : Bool
  enableMouse : Bool
  alwaysTrackMotion : Bool
  reportSignals : SignalSet
deriving DecidableEq

/-- `src/terminal.rs:448-459` `PrepareConfig::default`. -/
def PrepareConfig.default : PrepareConfig :=
  { blockSignals := true, enableControlFlow := false, enableKeypad := true, enableMouse := false,
    alwaysTrackMotion := false, reportSignals := SignalSet.new }

/-- `src/unix/terminal.rs:1117-1128` `PrepareState`; `Resume` (1130-1133) is its configuration. -/
structure PrepareState where
  oldTio : Termios
  oldSigcont : Option Disp
  oldSigint : Option Disp
  oldSigtstp : Option Disp
  oldSigquit : Option Disp
  oldSigwinch : Option Disp
  restoreKeypad : Bool
  restoreMouse : Bool
  prevResume : Option PrepareConfig
deriving DecidableEq

/-- The answer of a system call: success with a number, interruption by the signals in `during`
(possibly none of ours) after some time, or failure. (For `src/unix/terminal.rs:477`, 575, 1029.) -/
inductive SysRes
  | ok (n : Nat) | eintr (during : List Sig) (elapsed : Nat) | fail
deriving DecidableEq, Repr

/-- One step of the schedule. With `resize` the window has a new size from this step on (the kernel
then sends SIGWINCH; its arrival is part of the schedule like that of other signals).
(For the system calls at `src/unix/terminal.rs:326-450`, 477, 575.) -/
structure Step where
  before : List Sig
  res : SysRes
  resize : Option Size := none
deriving DecidableEq, Repr

/-- Kernel state, `LAST_SIGNAL` (`src/unix/terminal.rs:1364`), `Reader` (87-91), `Writer`, the
device's remaining input, the schedule, and the three records. -/
structure US where
  tio : Termios
  act : SigTab
  size : Size
  last : Nat
  inBuf : Bytes
  report : SignalSet
  resume : Option PrepareConfig
  w : WS
  input : Bytes
  sched : List Step
  received : Bytes
  seen : List Sig
  waited : Nat
deriving DecidableEq

/-- What does not change: the database, the table of sequences, whether the terminal is an xterm
(`src/unix/terminal.rs:145-147`), and the free capacity of the input buffer after `reserve(128)`,
as a function of its length. -/
structure REnv where
  w : WEnv
  seqs : SequenceMap SeqData
  xterm : Bool
  spare : Nat → Nat

/-- Result of a call that returns a value. (For `src/unix/terminal.rs:316-635`.) -/
inductive Res (α : Type)
  | ok (a : α) (s : US)
  | err (e : IoErr) (s : US)
  | stop (w : Stop)

/-- Code that uses the state. (For `src/unix/terminal.rs:316-635`.) -/
def M (α : Type) := US → Res α

/-- The `?` of `src/unix/terminal.rs:316-635`. -/
instance : Monad M where
  pure a := fun s => .ok a s
  bind m f := fun s =>
    match m s with
    | .ok a s' => f a s'
    | .err e s' => .err e s'
    | .stop w => .stop w

/-- Return an error. (`Err(e)`, e.g. `src/unix/terminal.rs:486`.) -/
def throwIo {α : Type} (e : IoErr) : M α := fun s => .err e s
/-- Panic. (For e.g. `src/unix/terminal.rs:291-297`.) -/
def panicM {α : Type} : M α := fun _ => .stop .panic
/-- Read the state. (For `&self`, `src/unix/terminal.rs:87-99`.) -/
def getS : M US := fun s => .ok s s
/-- Change the state. (For `&mut self`, `src/unix/terminal.rs:87-99`.) -/
def modifyS (f : US → US) : M Unit := fun s => .ok () (f s)

/-- A call of the writer. (For `src/unix/terminal.rs:376-382`, 425-431.) -/
def liftW (f : WS → Outcome WS) : M Unit := fun s =>
  match f s.w with
  | .ok w => .ok () { s with w := w }
  | .err e w => .err e { s with w := w }
  | .stop r => .stop r

/-- `src/unix/terminal.rs:1366-1368` `handle_signal(signum)`: run by the kernel when the signal
arrives and this handler is installed. -/
def deliver (s : US) (sig : Sig) : US :=
  if s.act.get sig = .ours then { s with last := sig.num, seen := s.seen ++ [sig] } else s

/-- Several signals, in order. (`src/unix/terminal.rs:1366-1368`.) -/
def deliverAll (s : US) (l : List Sig) : US := l.foldl deliver s

/-- The state once the first step of the schedule, `st`, has been taken, before its signals.
(For the system calls at `src/unix/terminal.rs:326-450`, 477, 575.) -/
abbrev US.advance (s : US) (st : Step) (rest : List Step) : US :=
  { s with sched := rest, size := st.resize.getD s.size }

/-- Begin an operation: the signals that arrive before it, and its answer.
(For the system calls at `src/unix/terminal.rs:326-450`, 477, 575.) -/
def tick : M SysRes := fun s =>
  match s.sched with
  | [] => .stop .blocked
  | st :: rest => .ok st.res (deliverAll (s.advance st rest) st.before)

/-- `src/unix/terminal.rs:1381-1383` `get_signal`. -/
def getSignal : M (Option Signal) := do
  let _ ← tick
  let s ← getS
  pure (convSignal s.last)

/-- `src/unix/terminal.rs:1385-1387` `take_signal`. -/
def takeSignal : M (Option Signal) := do
  let _ ← tick
  let s ← getS
  modifyS fun s => { s with last := 0 }
  pure (convSignal s.last)

/-- A system call that either succeeds or fails (`tcgetattr`, `tcsetattr`, `sigaction`, `ioctl`).
. (For `src/unix/terminal.rs:326`, 374, 395-405, 433-450, 1157-1174.) -/
def sysCall : M Unit := do
  match ← tick with
  | .ok _ => pure ()
  | .eintr d _ =>
    modifyS fun s => deliverAll s d
    throwIo .os
  | .fail => throwIo .os

/-- `tcgetattr(3)`. (Called at `src/unix/terminal.rs:326`.) -/
def tcgetattr : M Termios := do
  sysCall
  pure (← getS).tio

/-- `tcsetattr(3)`. (Called at `src/unix/terminal.rs:374`, 433.) -/
def tcsetattr (t : Termios) : M Unit := do
  sysCall
  modifyS fun s => { s with tio := t }

/-- `sigaction(2)`: install and return the previous disposition.
(Called at `src/unix/terminal.rs:395-405`, 437-449.) -/
def sigaction (sig : Sig) (d : Disp) : M Disp := do
  sysCall
  let old := (← getS).act.get sig
  modifyS fun s => { s with act := s.act.set sig d }
  pure old

/-- `src/unix/terminal.rs:1157-1174` `get_winsize`. -/
def getWinsize : M Size := do
  sysCall
  pure (← getS).size

/-- Answer of `select(2)` and `read(2)`. (For `src/unix/terminal.rs:477-486`, 575-583.) -/
inductive SysOut (α : Type)
  | done (a : α)
  | eintr (elapsed : Nat)

/-- `select(2)` on the input descriptor with the remaining time (microseconds). `0` descriptors
means the time has passed; without a timeout the kernel does not answer that.
(Called at `src/unix/terminal.rs:477`.) -/
def sysSelect (timeout : Option Nat) : M (SysOut Nat) := do
  match ← tick with
  | .ok 0 =>
    match timeout with
    | none => fun _ => .stop .blocked
    | some t => do
      modifyS fun s => { s with waited := s.waited + t }
      pure (.done 0)
  | .ok n => pure (.done n)
  | .eintr d e =>
    let e := match timeout with
      | none => e
      | some t => min e t
    modifyS fun s => deliverAll { s with waited := s.waited + e } d
    pure (.eintr e)
  | .fail => throwIo .os

/-- `read(2)` into a buffer of `len` bytes. (Called at `src/unix/terminal.rs:575`.) -/
def sysRead (len : Nat) : M (SysOut Bytes) := do
  match ← tick with
  | .ok n =>
    let k := min n len
    let got := (← getS).input.take k
    modifyS fun s => { s with input := s.input.drop k, received := s.received ++ got }
    pure (.done got)
  | .eintr d e =>
    modifyS fun s => deliverAll s d
    pure (.eintr e)
  | .fail => throwIo .os

/-- `peek_event` on the buffered input as used by the reader. (`src/unix/terminal.rs:461`, 593.) -/
def peekM (env : REnv) (buf : Bytes) : M (Option (Event × Nat)) :=
  match peekEvent env.seqs buf with
  | none => panicM
  | some .err => throwIo .utf8
  | some .none => pure none
  | some (.event ev n) => pure (some (ev, n))

/-- The loop of `wait_event` (`src/unix/terminal.rs:466-487`). `select` stores the time left into
its argument (Linux). The first argument bounds the number of iterations; it is never exhausted as
every iteration uses up a step of the schedule. -/
def waitLoop : Nat → Option Nat → M Bool
  | 0, _ => fun _ => .stop .fuel
  | n + 1, timeout => do
    match ← sysSelect timeout with
    | .done k => pure (k != 0)
    | .eintr e =>
      match ← getSignal with
      | some _ => pure true
      | none => waitLoop n (timeout.map (· - e))

/-- `src/unix/terminal.rs:456-490` `wait_event`, with the timeout already converted to
microseconds by `to_timeval` (see `Model/Timeout.lean`). -/
def waitEvent (env : REnv) (timeout : Option Nat) : M Bool := do
  match ← getSignal with
  | some _ => pure true
  | none =>
    match ← peekM env (← getS).inBuf with
    | some _ => pure true
    | none => fun s => waitLoop (s.sched.length + 1) timeout s

/-- What `read_input` and `read_raw` produce: an event and the bytes put into the caller's buffer
(its first `n` bytes for `Raw(n)`). (`src/unix/terminal.rs:510-585`.) -/
inductive InRes
  | nothing
  | raw (bytes : Bytes)
  | event (ev : Event)
deriving DecidableEq

/-- The loop of `read_input` (`src/unix/terminal.rs:574-584`). -/
def readLoop (len : Nat) : Nat → M InRes
  | 0 => fun _ => .stop .fuel
  | n + 1 => do
    match ← sysRead len with
    | .done b => pure (.raw b)
    | .eintr _ =>
      match ← takeSignal with
      | some sig => pure (.event (.signal sig))
      | none => readLoop len n

/-- `src/unix/terminal.rs:559-585` `read_input`. -/
def readInput (env : REnv) (len : Nat) (timeout : Option Nat) : M InRes := do
  match ← takeSignal with
  | some sig => pure (.event (.signal sig))
  | none =>
    if ← waitEvent env timeout then
      match ← takeSignal with
      | some sig => pure (.event (.signal sig))
      | none => fun s => readLoop len (s.sched.length + 1) s
    else pure .nothing

/-- `src/unix/terminal.rs:532-557` `read_into_buffer`. While `read_input` runs the buffer is
replaced by an empty one; it is put back afterwards, also when `read_input` failed. -/
def readIntoBuffer (env : REnv) (timeout : Option Nat) : M InRes := do
  let buf := (← getS).inBuf
  modifyS fun s => { s with inBuf := [] }
  fun s =>
    match readInput env (env.spare buf.length) timeout s with
    | .ok (.raw b) s' => .ok (.raw b) { s' with inBuf := buf ++ b }
    | .ok r s' => .ok r { s' with inBuf := buf }
    | .err e s' => .err e { s' with inBuf := buf }
    | .stop w => .stop w

/-- `src/unix/terminal.rs:587-602` `try_read` as a method. -/
def tryReadM (env : REnv) : M (Option Event) := do
  match tryRead env.seqs (← getS).inBuf with
  | none => panicM
  | some (.err, _) => throwIo .utf8
  | some (.none, _) => pure none
  | some (.event ev _, buf) =>
    modifyS fun s => { s with inBuf := buf }
    pure (some ev)

/-- `Drop for TerminalWriteGuard` (`src/unix/terminal.rs:1049-1055`): flush, errors are printed. -/
def dropWriter (env : WEnv) : M Unit := liftW (WOp.sessionEnd.run env)

/-- Take the write lock, run `m`, release the lock whether or not `m` fails.
(`src/unix/terminal.rs:317-320`, 414-417.) -/
def withWriter {α : Type} (env : REnv) (m : M α) : M α := fun s =>
  match m s with
  | .ok a s' => (do dropWriter env.w; pure a : M α) s'
  | .err e s' => (do dropWriter env.w; throwIo e : M α) s'
  | .stop w => .stop w

/-- ASCII bytes of a string literal. (For `src/unix/terminal.rs:1074-1115`.) -/
def ascii (s : String) : Bytes := s.toList.map fun c => UInt8.ofNat c.toNat

/-- `src/unix/terminal.rs:48` `XTERM_ENABLE_MOUSE`: ESC `[?1006h` ESC `[?1002h`. -/
def XTERM_ENABLE_MOUSE : Bytes := 0x1b :: ascii "[?1006h" ++ 0x1b :: ascii "[?1002h"
/-- `src/unix/terminal.rs:49`. -/
def XTERM_DISABLE_MOUSE : Bytes := 0x1b :: ascii "[?1006l" ++ 0x1b :: ascii "[?1002l"
/-- `src/unix/terminal.rs:50`. -/
def XTERM_ENABLE_MOUSE_MOTION : Bytes := 0x1b :: ascii "[?1003h"
/-- `src/unix/terminal.rs:51`. -/
def XTERM_DISABLE_MOUSE_MOTION : Bytes := 0x1b :: ascii "[?1003l"

/-- `src/unix/terminal.rs:674-679` `disable_keypad`. -/
def disableKeypad (env : REnv) : M Unit := liftW (expandOpt env.w .keypadLocal [])

/-- `src/unix/terminal.rs:681-688` `enable_keypad`. -/
def enableKeypad (env : REnv) : M Bool :=
  match env.w.db .keypadXmit with
  | some f => do
    liftW (expand env.w .keypadXmit [] f)
    pure true
  | none => pure false

/-- `src/unix/terminal.rs:690-693` `disable_mouse`. -/
def disableMouse : M Unit := do
  liftW (writeBytes XTERM_DISABLE_MOUSE)
  liftW (writeBytes XTERM_DISABLE_MOUSE_MOTION)

/-- `src/unix/terminal.rs:695-705` `enable_mouse`. -/
def enableMouse (env : REnv) (trackMotion : Bool) : M Bool :=
  if env.xterm then do
    liftW (writeBytes XTERM_ENABLE_MOUSE)
    (if trackMotion then liftW (writeBytes XTERM_ENABLE_MOUSE_MOTION) else pure ())
    pure true
  else pure false

/-- `src/unix/terminal.rs:342-376`: the modes for a configuration. -/
def preparedTio (cfg : PrepareConfig) (t : Termios) : Termios :=
  let iflag := t.iflag &&& ~~~(INLCR ||| ICRNL)
  let lflag := t.lflag &&& ~~~(ICANON ||| ECHO)
  let lflag := if cfg.blockSignals then lflag &&& ~~~ISIG else lflag ||| ISIG
  let iflag := if cfg.enableControlFlow then iflag ||| IXON else iflag &&& ~~~IXON
  { t with iflag := iflag, lflag := lflag, vmin := 0, vtime := 0 }

/-- Install the handler for `sig` if `cond`, returning the previous disposition if so
(`src/unix/terminal.rs:396-406`). -/
def installIf (cond : Bool) (sig : Sig) : M (Option Disp) :=
  if cond then do pure (some (← sigaction sig .ours)) else pure none

/-- `src/unix/terminal.rs:378-382`. -/
def mouseOn (env : REnv) (cfg : PrepareConfig) : M Bool :=
  if cfg.enableMouse then enableMouse env cfg.alwaysTrackMotion else pure false

/-- `src/unix/terminal.rs:384-388`. -/
def keypadOn (env : REnv) (cfg : PrepareConfig) : M Bool :=
  if cfg.enableKeypad then enableKeypad env else pure false

/-- `src/unix/terminal.rs:322-412` `prepare_with_lock`. -/
def prepareWithLock (env : REnv) (cfg : PrepareConfig) : M PrepareState := do
  let oldTio ← tcgetattr
  let prevResume := (← getS).resume
  tcsetattr (preparedTio cfg oldTio)
  let restoreMouse ← mouseOn env cfg
  let restoreKeypad ← keypadOn env cfg
  liftW flush
  let oldSigcont ← sigaction .cont .ours
  let oldSigwinch ← sigaction .winch .ours
  let oldSigint ← installIf (cfg.reportSignals.contains .interrupt) .int
  let oldSigtstp ← installIf (cfg.reportSignals.contains .suspend) .tstp
  let oldSigquit ← installIf (cfg.reportSignals.contains .quit) .quit
  modifyS fun s => { s with report := cfg.reportSignals, resume := some cfg }
  pure { oldTio := oldTio, oldSigcont := some oldSigcont, oldSigint := oldSigint,
         oldSigtstp := oldSigtstp, oldSigquit := oldSigquit, oldSigwinch := some oldSigwinch,
         restoreKeypad := restoreKeypad, restoreMouse := restoreMouse, prevResume := prevResume }

/-- `src/unix/terminal.rs:317-320` `prepare`. -/
def prepare (env : REnv) (cfg : PrepareConfig) : M PrepareState :=
  withWriter env (prepareWithLock env cfg)

/-- Put back a saved disposition (`src/unix/terminal.rs:436-450`). -/
def restoreSig (sig : Sig) (old : Option Disp) : M Unit :=
  match old with
  | some d => do
    let _ ← sigaction sig d
    pure ()
  | none => pure ()

/-- `src/unix/terminal.rs:419-454` `restore_with_lock`. -/
def restoreWithLock (env : REnv) (st : PrepareState) : M Unit := do
  modifyS fun s => { s with resume := st.prevResume }
  (if st.restoreMouse then disableMouse else pure ())
  (if st.restoreKeypad then disableKeypad env else pure ())
  liftW flush
  tcsetattr st.oldTio
  restoreSig .cont st.oldSigcont
  restoreSig .int st.oldSigint
  restoreSig .tstp st.oldSigtstp
  restoreSig .quit st.oldSigquit
  restoreSig .winch st.oldSigwinch

/-- `src/unix/terminal.rs:414-417` `restore`. -/
def restore (env : REnv) (st : PrepareState) : M Unit := withWriter env (restoreWithLock env st)

/-- `src/unix/terminal.rs:623-628` `resume`: the state `prepare` returns is dropped. -/
def resumeM (env : REnv) : M Unit := do
  match (← getS).resume with
  | some cfg => do
    let _ ← prepare env cfg
    pure ()
  | none => pure ()

/-- `src/unix/terminal.rs:149-151` `Terminal::size` with 670-672. -/
def termSize (env : REnv) : M Size := withWriter env getWinsize

/-- `src/unix/terminal.rs:604-621` `handle_signal`. -/
def handleSignal (env : REnv) (sig : Signal) : M (Option Event) :=
  let report : M (Option Event) := do
    if (← getS).report.contains sig then pure (some (.signal sig)) else pure none
  match sig with
  | .continue => do
    resumeM env
    report
  | .resize => do
    let size ← termSize env
    pure (some (.resize size))
  | _ => report

/-- `src/unix/terminal.rs:492-508` `read_event`. -/
def readEvent (env : REnv) (timeout : Option Nat) : M (Option Event) := do
  match ← tryReadM env with
  | some ev => pure (some ev)
  | none =>
    match ← readIntoBuffer env timeout with
    | .raw _ => tryReadM env
    | .event (.signal sig) => handleSignal env sig
    | .event ev => pure (some ev)
    | .nothing => pure none

/-- `src/unix/terminal.rs:510-530` `read_raw` with a buffer of `len` bytes. -/
def readRaw (env : REnv) (len : Nat) (timeout : Option Nat) : M InRes := do
  let buf := (← getS).inBuf
  if buf ≠ [] then
    let n := min len buf.length
    modifyS fun s => { s with inBuf := buf.drop n }
    pure (.raw (buf.take n))
  else
    match ← readInput env len timeout with
    | .event (.signal sig) => do
      match ← handleSignal env sig with
      | some ev => pure (.event ev)
      | none => pure .nothing
    | r => pure r

/-- The calls on a terminal, as made by a program that keeps the states returned by `prepare` on a
stack. (Methods: `src/unix/terminal.rs:101-298`.) -/
inductive UOp
  | prepare (cfg : PrepareConfig)
  | restore
  | waitEvent (timeout : Option Nat)
  | readEvent (timeout : Option Nat)
  | readRaw (len : Nat) (timeout : Option Nat)
  | write (op : WOp)

/-- What the program sees of a call. (Methods: `src/unix/terminal.rs:101-298`.) -/
inductive URet
  | unit | flag (b : Bool) | event (ev : Option Event) | raw (bytes : Bytes) | err (e : IoErr)
deriving DecidableEq

end Mortal
