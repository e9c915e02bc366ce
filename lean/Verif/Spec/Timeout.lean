import Verif.Model.Timeout

/-! # Timeouts (C40) -/

namespace Mortal.Spec

/-- The values a `Duration` can have. -/
def Valid (d : Duration) : Prop := d.secs < 2 ^ 64 ∧ d.nanos < 1000000000

/-- Length in nanoseconds. -/
def nanoseconds (d : Duration) : Nat := d.secs * 1000000000 + d.nanos

/-- Length in whole milliseconds, rounded down. -/
def millisOf (d : Duration) : Nat := nanoseconds d / 1000000

/-- Length of a `timeval` in microseconds. -/
def microsOf (t : TimeVal) : Int := t.sec * 1000000 + t.usec

end Mortal.Spec
