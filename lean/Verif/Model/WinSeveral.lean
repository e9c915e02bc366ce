import Verif.Model.Win

/-! # Several terminals of one program, on Windows

`Terminal::stdout` and `Terminal::stderr` (`src/windows/terminal.rs:150-156`) have their own output
and the same input. They share the statics `CATCH_SIGNALS` and `LAST_SIGNAL` (1267-1271), and the
console has one input mode, one list of control handlers and one queue of records.

Simplification: calls on different terminals are made one after another. -/

namespace Mortal

/-- `src/windows/terminal.rs:85-116` `Terminal`, with its `Reader` and its `Writer`. -/
structure TermW where
  t : WTerm
  outH : Nat
  theme : Theme
  rd : WReader

/-- The process: the statics (`src/windows/terminal.rs:1267-1271`), the schedule and the record of
calls, and the terminals. -/
structure WProc where
  catchSet : BitVec 64
  last : BitVec 64
  os : List ConStep
  log : List WEv
  term : Nat → TermW

/-- What a call on terminal `i` works on: its own fields and what all share
(`src/windows/terminal.rs:85-116`, 1267-1271). -/
def WProc.view (p : WProc) (i : Nat) : WinSt where
  outH := (p.term i).outH
  theme := (p.term i).theme
  rd := (p.term i).rd
  catchSet := p.catchSet
  last := p.last
  os := p.os
  log := p.log

/-- The process once a call on terminal `i` has left `s`. (For `src/windows/terminal.rs:85-116`, 1267-1271.) -/
def WProc.put (p : WProc) (i : Nat) (s : WinSt) : WProc where
  catchSet := s.catchSet
  last := s.last
  os := s.os
  log := s.log
  term := fun j => if j = i then ⟨(p.term i).t, s.outH, s.theme, s.rd⟩ else p.term j

end Mortal
