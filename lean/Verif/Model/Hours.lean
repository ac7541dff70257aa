import Verif.Model.Float64
import Verif.Model.Py
import Verif.Model.Round

/-!
# Times during a cruise

Model of `start_time + timedelta(hours=t)` (`/repo/hrosailing/cruising/basics.py:380`, `:505`), where `t` is the double which the solver
of the initial value problem gives. A `datetime` is the number of microseconds since the beginning of the year 1, a `timedelta` a number
of microseconds.

External: `timedelta` splits the number of hours into its integral and its fractional part, multiplies the latter with the number of
microseconds of an hour in double precision and rounds the sum to whole microseconds, halves to the even number.
-/

namespace Verif.F64

variable {K : Type} [Field K] [LinearOrder K] [FloorRing K]

/-- The integral part of a double, rounded towards zero, as used by `timedelta(hours=t)` (`/repo/hrosailing/cruising/basics.py:380`). -/
def integral (x : K) : ℤ := if 0 ≤ x then ⌊x⌋ else ⌈x⌉

/-- `timedelta(hours=t)` in microseconds (`/repo/hrosailing/cruising/basics.py:380`, `:505`). -/
def hours (t : K) : ℤ :=
  pyRound ((integral t : K) * 3600000000 + fl (3600000000 * (t - integral t)))

/-- `start_time + timedelta(hours=t)` (`/repo/hrosailing/cruising/basics.py:380`, `:505`): `OverflowError` for a `timedelta` of more than
999999999 days and for a `datetime` which is not in the years 1 to 9999. -/
def later (start : ℤ) (t : K) : Except PyErr ℤ :=
  if hours t < -999999999 * 86400000000 ∨ 1000000000 * 86400000000 ≤ hours t then .error .otherError
  else if start + hours t < 0 ∨ 3652059 * 86400000000 ≤ start + hours t then .error .otherError
  else .ok (start + hours t)

end Verif.F64
