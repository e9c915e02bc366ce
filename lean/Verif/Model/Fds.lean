/-!
# File descriptors

Which descriptors the terminals of a program use, and when they are closed:
`src/unix/terminal.rs:66-74`, `102-141`, `300-310`, `1134-1147` and `src/unix/screen.rs:37-64`. A file
here is an open file description; the numbers of descriptors are chosen by the system. That a path
names a terminal, what is read and written, and the descriptors the `terminfo` crate opens and closes
while it looks for its database are not modelled.
-/

namespace Mortal

/-- The part of `Terminal` (`src/unix/terminal.rs:66-74`) that is about descriptors. -/
structure FdTerm where
  inFd : Nat
  outFd : Nat
  owned : Bool
deriving DecidableEq, Repr

/-- The process: its table of descriptors, with the file each one refers to; the number of files opened
so far; and the terminals the program has made, in that order (`none`: dropped).
(For `src/unix/terminal.rs:66-74`, 121-139.) -/
structure FdSt where
  tab : Nat → Option Nat
  next : Nat
  terms : List (Option FdTerm)

/-- The system opens a new file as descriptor `fd`. (For `open_rw`, `src/unix/terminal.rs:1138-1147`.) -/
def FdSt.sysOpen (s : FdSt) (fd : Nat) : FdSt :=
  { s with tab := fun i => if i = fd then some s.next else s.tab i, next := s.next + 1 }

/-- `src/unix/terminal.rs:1134-1136` `close_fd`. -/
def FdSt.closeFd (s : FdSt) (fd : Nat) : FdSt :=
  { s with tab := fun i => if i = fd then none else s.tab i }

/-- `src/unix/terminal.rs:102-119` `Terminal::new`; `db`: the terminfo database could be read. -/
def fdNew (inFd outFd : Nat) (owned db : Bool) : Option FdTerm :=
  if db then some { inFd := inFd, outFd := outFd, owned := owned } else none

/-- The terminal goes to the program. (The `Ok` of `src/unix/terminal.rs:121-139`.) -/
def FdSt.got (s : FdSt) (t : FdTerm) : FdSt := { s with terms := s.terms ++ [some t] }

/-- `src/unix/terminal.rs:121-131` `Terminal::open`, with `open_rw` (1138-1147); `fd`: the descriptor
the system gives, if it does not fail. -/
def fdOpen (s : FdSt) (fd : Option Nat) (db : Bool) : FdSt :=
  match fd with
  | none => s
  | some fd =>
    let s := s.sysOpen fd
    match fdNew fd fd true db with
    | some t => s.got t
    | none => s.closeFd fd

/-- `src/unix/terminal.rs:133-135` `Terminal::stdout`. -/
def fdStdout (s : FdSt) (db : Bool) : FdSt :=
  match fdNew 0 1 false db with
  | some t => s.got t
  | none => s

/-- `src/unix/terminal.rs:137-139` `Terminal::stderr`. -/
def fdStderr (s : FdSt) (db : Bool) : FdSt :=
  match fdNew 0 2 false db with
  | some t => s.got t
  | none => s

/-- `src/unix/terminal.rs:300-310` `Drop for Terminal`. `poisoned`: the write lock is poisoned, so
`set_cursor_mode` panics; an error of it is only printed. -/
def fdDrop (t : FdTerm) (poisoned : Bool) (s : FdSt) : FdSt :=
  if poisoned then s
  else if t.owned then s.closeFd t.outFd else s

/-- How `Screen::new` (`src/unix/screen.rs:37-56`) ends: everything works; the size cannot be asked for;
the terminal cannot be prepared; the buffer panics; the screen cannot be entered. -/
inductive ScrNew
  | ok | noSize | noPrepare | bufferPanics | noEnter
deriving DecidableEq, Repr

/-- What a program does. Terminals are named by their place in `terms`.
(Methods: `src/unix/terminal.rs:101-310`.) -/
inductive FdOp
  | openT (fd : Option Nat) (db : Bool)
  | stdoutT (db : Bool)
  | stderrT (db : Bool)
  /-- A terminal, or the screen made of it, is dropped. (With a screen and a poisoned lock the process
  aborts, see C64; what is open then does not matter.) -/
  | dropT (i : Nat) (poisoned : Bool)
  | newScreen (i : Nat) (how : ScrNew)
  /-- Any method that reads, waits or sets terminal modes (`in_fd`: 326, 374, 433, 468, 575). -/
  | readT (i : Nat)
  /-- Any method that writes or asks for the size (`out_fd`: 671, 1029). -/
  | writeT (i : Nat)
  /-- The program opens a file of its own. -/
  | openF (fd : Nat)
  /-- The program closes a descriptor. -/
  | closeF (fd : Nat)
deriving DecidableEq, Repr

/-- The terminal `i` is dropped; the program has no access to it any more.
(For `src/unix/terminal.rs:300-310`.) -/
def FdSt.dropAt (s : FdSt) (i : Nat) (poisoned : Bool) : FdSt :=
  match s.terms[i]? with
  | some (some t) => { fdDrop t poisoned s with terms := s.terms.set i none }
  | _ => s

/-- One step of a program, and the file it reads from or writes to (`none`: no such thing; `some none`:
the descriptor is not open). (Methods: `src/unix/terminal.rs:101-310`.) -/
def FdOp.run (s : FdSt) : FdOp → FdSt × Option (Option Nat)
  | .openT fd db => (fdOpen s fd db, none)
  | .stdoutT db => (fdStdout s db, none)
  | .stderrT db => (fdStderr s db, none)
  | .dropT i p => (s.dropAt i p, none)
  -- the terminal moves into the screen, or is dropped; no guard is alive then
  | .newScreen i how => (if how = .ok then s else s.dropAt i false, none)
  | .readT i => (s, match s.terms[i]? with | some (some t) => some (s.tab t.inFd) | _ => none)
  | .writeT i => (s, match s.terms[i]? with | some (some t) => some (s.tab t.outFd) | _ => none)
  | .openF fd => (s.sysOpen fd, none)
  | .closeF fd => (s.closeFd fd, none)

/-- A program, and the files it reads from and writes to. (Methods: `src/unix/terminal.rs:101-310`.) -/
def runFd : List FdOp → FdSt → FdSt × List (Option (Option Nat))
  | [], s => (s, [])
  | o :: ops, s =>
    let (s', r) := o.run s
    let (s'', rs) := runFd ops s'
    (s'', r :: rs)

end Mortal
