import Mathlib.Analysis.SpecialFunctions.Trigonometric.Inverse
import Verif.Model.Py
import Verif.Model.Curve

/-!
# Conversion of winds

Model of `_Wind` (`/repo/hrosailing/core/computing.py:10-97`) over the real numbers. `none` stands for `nan`.
-/

namespace Verif.Wind

open Verif.Curve (rad2deg deg2rad)

/-- The values of the enumeration (`/repo/hrosailing/core/computing.py:10-12`). -/
inductive Dir
  | toTrue
  | toApparent

/-- `self.value` (`/repo/hrosailing/core/computing.py:11-12`). -/
def Dir.value : Dir → ℝ
  | .toTrue => -1
  | .toApparent => 1

/-- `_convert_wind_speed` (`/repo/hrosailing/core/computing.py:40-45`) for one wind; `wa` in radians. -/
noncomputable def convertSpeed (d : Dir) (ws wa bsp : ℝ) : ℝ :=
  Real.sqrt (ws ^ 2 + bsp ^ 2 + 2 * d.value * ws * bsp * Real.cos wa)

/-- `_convert_wind_angle` (`/repo/hrosailing/core/computing.py:47-60`) for one wind; `wa` in radians. If the converted
wind speed is zero then the quotient is `0 / 0`. -/
noncomputable def convertAngle (d : Dir) (converted ws wa bsp : ℝ) (above : Bool) : Option ℝ :=
  if converted = 0 then none
  else
    let temp := (ws * Real.cos wa + d.value * bsp) / converted
    let temp := if temp > 1 then 1 else temp
    let temp := if temp < -1 then -1 else temp
    some (if above then 360 - rad2deg (Real.arccos temp) else rad2deg (Real.arccos temp))

open Classical in
/-- One row of `convert_wind` (`/repo/hrosailing/core/computing.py:29-38`). -/
noncomputable def convertRow (d : Dir) (ws wa bsp : ℝ) : ℝ × Option ℝ × ℝ :=
  let wa := pmod wa 360
  let above := decide (wa > 180)
  let wa := deg2rad wa
  let converted := convertSpeed d ws wa bsp
  (converted, convertAngle d converted ws wa bsp above, bsp)

/-- The finite rows (`np.asarray_chkfinite`, `/repo/hrosailing/core/computing.py:18`). -/
def finite : List (ℝ × Option ℝ × ℝ) → Except PyErr (List (ℝ × ℝ × ℝ))
  | [] => .ok []
  | (_, none, _) :: _ => .error .valueError
  | (w, some a, b) :: rows =>
    match finite rows with
    | .error e => .error e
    | .ok r => .ok ((w, a, b) :: r)

open Classical in
/-- `convert_wind` (`/repo/hrosailing/core/computing.py:14-38`, `:63-98`) for lists of triples, which are nonempty lists
of wind speed, wind angle and boat speed; an empty list has a wrong shape. -/
noncomputable def convertWind (d : Dir) (wind : List (ℝ × Option ℝ × ℝ)) :
    Except PyErr (List (ℝ × Option ℝ × ℝ)) :=
  match finite wind with
  | .error e => .error e
  | .ok rows =>
    if rows.isEmpty then .error .typeError
    else if ∃ r ∈ rows, r.1 < 0 then .error .typeError
    else .ok (rows.map fun r => convertRow d r.1 r.2.1 r.2.2)

open Classical in
/-- The array of the caller after `convert_wind`: `np.hsplit` gives views and `wa %= 360` writes to them
(`/repo/hrosailing/core/computing.py:25-29`). Lists are copied at `:18`. -/
noncomputable def callerArray (wind : List (ℝ × ℝ × ℝ)) : List (ℝ × ℝ × ℝ) :=
  if ∃ r ∈ wind, r.1 < 0 then wind else wind.map fun r => (r.1, pmod r.2.1 360, r.2.2)

end Verif.Wind
