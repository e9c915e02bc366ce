import Verif.Model.Unix

/-! # Several terminals of one program

A program may have several `Terminal`s: `Terminal::stdout` and `Terminal::stderr` use the same input
(`src/unix/terminal.rs:133-139`), `Terminal::open` any device (121-131). What they share: the kernel
keeps one table of handlers per process, the crate one `LAST_SIGNAL` (`src/unix/terminal.rs:1364`),
and the terminals on one device its modes, its size and its input.

Simplification: calls on different terminals are made one after another. What each terminal sends is
recorded for itself, also if two are on one device. -/

namespace Mortal

/-- A device: modes, size of the window, what will be typed, and what has been read.
(For `in_fd` and `out_fd`, `src/unix/terminal.rs:66-74`.) -/
structure Tty where
  tio : Termios
  size : Size
  input : Bytes
  received : Bytes

/-- `src/unix/terminal.rs:66-74` `Terminal`: on which device it is, its `Reader` (87-91), and its
`Writer` (93-99). -/
structure TermU where
  tty : Nat
  inBuf : Bytes
  report : SignalSet
  resume : Option PrepareConfig
  w : WS

/-- The process: its handlers, `LAST_SIGNAL` (`src/unix/terminal.rs:1364`), the schedule and two
records; the devices and the terminals. -/
structure Proc where
  act : SigTab
  last : Nat
  sched : List Step
  seen : List Sig
  waited : Nat
  tty : Nat → Tty
  term : Nat → TermU

/-- What a call on terminal `i` works on: its own fields, its device, and what all share
(`src/unix/terminal.rs:66-99`, 1364). -/
def Proc.view (p : Proc) (i : Nat) : US where
  tio := (p.tty (p.term i).tty).tio
  act := p.act
  size := (p.tty (p.term i).tty).size
  last := p.last
  inBuf := (p.term i).inBuf
  report := (p.term i).report
  resume := (p.term i).resume
  w := (p.term i).w
  input := (p.tty (p.term i).tty).input
  sched := p.sched
  received := (p.tty (p.term i).tty).received
  seen := p.seen
  waited := p.waited

/-- The process once a call on terminal `i` has left `s`. (For `src/unix/terminal.rs:66-99`, 1364.) -/
def Proc.put (p : Proc) (i : Nat) (s : US) : Proc where
  act := s.act
  last := s.last
  sched := s.sched
  seen := s.seen
  waited := s.waited
  tty := fun k => if k = (p.term i).tty then ⟨s.tio, s.size, s.input, s.received⟩ else p.tty k
  term := fun j => if j = i then ⟨(p.term i).tty, s.inBuf, s.report, s.resume, s.w⟩ else p.term j

/-- Between calls: the window of terminal `i` may change its size, and signals arrive
(`src/unix/terminal.rs:1366-1368`). -/
def Proc.outside (p : Proc) (i : Nat) (size : Option Size) (sigs : List Sig) : Proc :=
  p.put i (deliverAll { p.view i with size := size.getD (p.view i).size } sigs)

end Mortal
