import Verif.Model.Float64
import Verif.Model.Wind

/-!
# Conversion of winds in double precision

Model of `_Wind` (`/repo/hrosailing/core/computing.py:10-60`) as it is calculated: the result of each arithmetic operation
and of the square root is rounded to the nearest double. The functions `np.cos(np.deg2rad(x))` and
`np.rad2deg(np.arccos(x))` are parameters, because their accuracy depends on the mathematical library. Wind angles are
already reduced modulo 360 (for the rounding of `%` see `Verif.F64.mod`). `none` stands for `nan`.
-/

namespace Verif.F64

section

variable {K : Type} [Field K] [LinearOrder K] [FloorRing K]

/-- The argument of `np.sqrt` in `_convert_wind_speed` (`/repo/hrosailing/core/computing.py:41-45`) in double precision,
where `v` is `self.value` and `c` is `np.cos(wa)`. -/
def windRadicand (v ws b c : K) : K :=
  fl (fl (fl (ws * ws) + fl (b * b)) + fl (fl (fl (2 * v * ws) * b) * c))

/-- `temp` (`/repo/hrosailing/core/computing.py:48-52`) in double precision. Division by zero gives an infinite number, which
is replaced by 1 or -1, or `nan` if the dividend is zero, too. -/
def windCosine (v w ws b c : K) : Option K :=
  let n := fl (fl (ws * c) + fl (v * b))
  if w = 0 then
    if n = 0 then none else some (if n > 0 then 1 else -1)
  else
    let temp := fl (n / w)
    let temp := if temp > 1 then 1 else temp
    some (if temp < -1 then -1 else temp)

end

open Classical in
/-- The converted wind speed and wind angle of one row (`/repo/hrosailing/core/computing.py:29-60`) in double precision. The
square root of a negative number is `nan`, and so is everything calculated from it. -/
noncomputable def windRow (cosD acosD : ℝ → ℝ) (d : Wind.Dir) (ws wa b : ℝ) : Option ℝ × Option ℝ :=
  let c := cosD wa
  let r := windRadicand d.value ws b c
  if r < 0 then (none, none)
  else
    let w := fl (Real.sqrt r)
    (some w, (windCosine d.value w ws b c).map fun t => if wa > 180 then fl (360 - acosD t) else acosD t)

end Verif.F64
