import Verif.Model.Types

/-! # Conversion of timeouts: `to_timeval` (Unix) and `as_millis` (Windows) -/

namespace Mortal

/-- `std::time::Duration`: whole seconds (`u64`) and nanoseconds below 10^9.
(For `src/unix/terminal.rs:1192-1203`, `src/windows/terminal.rs:933-943`.) -/
structure Duration where
  secs : Nat
  nanos : Nat
deriving DecidableEq, Repr

/-- `Duration::subsec_millis`. (For `src/unix/terminal.rs:1200`.) -/
def Duration.subsecMillis (d : Duration) : Nat := d.nanos / 1000000

/-- `i64::MAX`. (For `src/unix/terminal.rs:1193`.) -/
def i64Max : Int := 9223372036854775807

/-- A value computed in `i64` with overflow checks (debug profile): overflow is a panic.
(For `src/unix/terminal.rs:1202`.) -/
def i64 (n : Int) : Panics Int := if -9223372036854775808 ≤ n ∧ n ≤ i64Max then some n else none

/-- `struct timeval`. (For `src/unix/terminal.rs:1192-1203`.) -/
structure TimeVal where
  sec : Int
  usec : Int
deriving DecidableEq, Repr

/-- `TimeVal::microseconds` of nix 0.26 (`src/sys/time.rs` of that crate, not in /repo): panics if
the seconds are not within its bounds. -/
def TimeVal.microseconds (n : Int) : Panics TimeVal :=
  let sec := n.fdiv 1000000
  if -(i64Max.tdiv 1000000) + 1 ≤ sec ∧ sec ≤ i64Max.tdiv 1000000 - 1 then
    some ⟨sec, n.fmod 1000000⟩
  else none

/-- `TimeVal::milliseconds` of nix 0.26 (not in /repo): panics on overflow.
(Called at `src/unix/terminal.rs:1202`.) -/
def TimeVal.milliseconds (n : Int) : Panics TimeVal := do
  TimeVal.microseconds (← i64 (n * 1000))

/-- `src/unix/terminal.rs:1193`: `MAX_SECS`. -/
def MAX_SECS : Int := i64Max.tdiv 1000

/-- `src/unix/terminal.rs:1192-1203` `to_timeval`. -/
def toTimeval (d : Duration) : Panics TimeVal := do
  let secs : Int := if (d.secs : Int) > MAX_SECS then MAX_SECS else d.secs
  let millis : Int := d.subsecMillis
  let prod ← i64 (secs * 1000)
  let total ← i64 (prod + millis)
  TimeVal.milliseconds total

/-- winapi `INFINITE`. (For `src/windows/terminal.rs:941`.) -/
def INFINITE : BitVec 32 := 0xFFFFFFFF#32

/-- `src/windows/terminal.rs:933-943` `as_millis` with overflow checks (debug profile). -/
def asMillis : Option Duration → Panics (BitVec 32)
  | none => some INFINITE
  | some d =>
    if d.secs * 1000 < 2 ^ 64 then
      let s := BitVec.ofNat 32 (d.secs * 1000)
      let ms := BitVec.ofNat 32 (d.nanos / 1000000)
      if s.toNat + ms.toNat < 2 ^ 32 then some (s + ms) else none
    else none

/-- The same without overflow checks (release profile): arithmetic wraps.
(`src/windows/terminal.rs:933-943`.) -/
def asMillisRelease : Option Duration → BitVec 32
  | none => INFINITE
  | some d =>
    BitVec.ofNat 32 (d.secs * 1000 % 2 ^ 64) + BitVec.ofNat 32 (d.nanos / 1000000)

end Mortal
