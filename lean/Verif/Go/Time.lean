import Verif.Go.Basic
/-
The part of Go's `time` package used by the code.
-/
namespace Gringo

/-- `time.Time` without location and monotonic reading: seconds since January 1, year 1 (an `int64` in
Go) and nanoseconds within the second. -/
structure Time where
  sec : Int
  nsec : Nat
deriving Repr, DecidableEq

namespace Time

/-- Seconds between year 1 and 1970 (`unixToInternal` in package time). -/
def unixToInternal : Int := 62135596800

/-- `time.Unix(ts, 0).UTC()`: the addition wraps around as `int64`. -/
def unix (ts : Int) : Time := { sec := wrapI64 (ts + unixToInternal), nsec := 0 }

/-- `t.Unix()` -/
def toUnix (t : Time) : Int := wrapI64 (t.sec - unixToInternal)

/-- `t.After(u)` -/
def after (t u : Time) : Bool := decide (u.sec < t.sec) || (t.sec == u.sec && decide (u.nsec < t.nsec))

/-- `t.Before(u)` -/
def before (t u : Time) : Bool := after u t

/-- The instant in nanoseconds since year 1. -/
def nanos (t : Time) : Int := t.sec * 1000000000 + t.nsec

/-- `t.Sub(u)`: the difference in nanoseconds, saturated to the `int64` range (documented contract of
`Time.Sub`). -/
def sub (t u : Time) : Int := max (-(2 ^ 63)) (min (2 ^ 63 - 1) (t.nanos - u.nanos))

end Time
end Gringo
