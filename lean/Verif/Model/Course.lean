import Mathlib.Analysis.SpecialFunctions.Trigonometric.Arctan
import Mathlib.Analysis.SpecialFunctions.Complex.Arg
import Mathlib.Analysis.Complex.Basic
import Verif.Model.Cruising
import Verif.Model.Curve
import Verif.Model.Mod

/-!
# Wind, course and distance in `hrosailing.cruising.basics`, and `cost_cruise`

Model of `/repo/hrosailing/cruising/basics.py:225-250`, `:268-387`, `:445-477`, `:525-630`. Arithmetic is exact; `none`
is `nan` or an infinite value.
-/

namespace Verif.Course

open Curve (deg2rad rad2deg)

/-- The parameter `wind` together with `wind_fmt` (`/repo/hrosailing/cruising/basics.py:539-556`). -/
inductive WindArg
  | wsWan (ws wan : ℝ)
  | wsWaHdt (ws wa hdt : ℝ)
  | uvGrd (u v : ℝ)
  | other

/-- `_wind_relative_to_north` (`/repo/hrosailing/cruising/basics.py:571-583`). -/
noncomputable def windRelativeToNorth : WindArg → Except PyErr (ℝ × ℝ)
  | .wsWan ws wan => .ok (ws, wan)
  | .wsWaHdt ws wa hdt => .ok (ws, pmod (hdt - wa) 360)
  | .uvGrd u v => .ok (Real.sqrt (u ^ 2 + v ^ 2), 180 / Real.pi * Complex.arg ⟨u, v⟩)
  | .other => .error .attributeError

/-- `_uvgrid_to_tw` (`/repo/hrosailing/cruising/basics.py:592-597`). -/
noncomputable def uvgridToTw (u v hdt : ℝ) : ℝ × ℝ :=
  let tws := Real.sqrt (u ^ 2 + v ^ 2)
  let wa := pmod (180 + 180 / Real.pi * Complex.arg ⟨u, v⟩) 360
  (tws, pmod (hdt - wa) 360)

/-- `_right_handing_course` (`/repo/hrosailing/cruising/basics.py:525-536`). -/
noncomputable def rightHandingCourse (a b : ℝ × ℝ) : Option ℝ :=
  let numerator := Real.cos a.2 * Real.sin b.2 - Real.cos (a.1 - b.1) * Real.cos b.2 * Real.sin a.2
  let denominator := Real.cos (a.1 - b.1) * Real.cos a.2 * Real.cos b.2 + Real.sin a.2 * Real.cos b.2
  if 1 - denominator ^ 2 ≤ 0 then none
  else
    let q := numerator / Real.sqrt (1 - denominator ^ 2)
    if q < -1 ∨ 1 < q then none else some (Real.arccos q)

/-- The variable `heading` of `cruise` (`/repo/hrosailing/cruising/basics.py:245-250`). -/
noncomputable def cruiseHeading (rhc wdir : ℝ) : ℝ :=
  180 - rad2deg (Real.arccos (Real.cos rhc * Real.cos wdir + Real.sin rhc * Real.sin wdir))

/-- `EARTH_FLATTENING` (`/repo/hrosailing/cruising/basics.py:600`). -/
noncomputable def flattening : ℝ := 1 / 298.257223563

/-- `EQUATOR_CIRCUMFERENCE` (`/repo/hrosailing/cruising/basics.py:601`). -/
noncomputable def circumference : ℝ := 40075.017

/-- `_great_earth_ellipsoid_distance` (`/repo/hrosailing/cruising/basics.py:604-630`). If `s` or `c` is zero, then a
division by zero makes the result infinite or `nan`. -/
noncomputable def ellipsoidDistance (a b : ℝ × ℝ) : Option ℝ :=
  let f := (a.2 + b.2) / 2
  let g := (a.2 - b.2) / 2
  let lat := (a.1 - b.1) / 2
  let s := (Real.sin g * Real.cos lat) ^ 2 + (Real.cos f * Real.sin lat) ^ 2
  let c := (Real.cos g * Real.cos lat) ^ 2 + (Real.sin f * Real.sin lat) ^ 2
  if s = 0 ∨ c = 0 then none
  else
    let omega := deg2rad (Real.arctan (Real.sqrt (s / c)))
    let d := circumference * omega / Real.pi
    let t := Real.sqrt (s * c) / omega
    let h1 := (3 * t - 1) / (2 * c)
    let h2 := (3 * t + 1) / (2 * s)
    some (d * (1 + flattening *
      (h1 * (Real.sin f * Real.cos g) ^ 2 - h2 * (Real.cos f * Real.sin g) ^ 2)))

/-- `v_direction` of `isochrone` (`/repo/hrosailing/cruising/basics.py:445-446`). -/
noncomputable def isoDirection (direction : ℝ) : ℝ × ℝ :=
  let arc := Real.pi * (1 / 2 - direction / 180)
  (Real.cos arc, Real.sin arc)

/-- `end` of `isochrone` (`/repo/hrosailing/cruising/basics.py:443-446`, `:476-477`) for the distance `s`. -/
noncomputable def isoEnd (start : ℝ × ℝ) (direction s : ℝ) : ℝ × ℝ :=
  let p := Cruising.mercator start.1 start
  Cruising.inverseMercator start.1 (p.1 + s * (isoDirection direction).1, p.2 + s * (isoDirection direction).2)

/-- `total_s` of `cost_cruise` (`/repo/hrosailing/cruising/basics.py:346-349`). -/
noncomputable def totalS (start stop : ℝ × ℝ) : ℝ :=
  let latMp := (start.1 + stop.1) / 2
  let p := Cruising.mercator latMp start
  let q := Cruising.mercator latMp stop
  Real.sqrt ((q.1 - p.1) ^ 2 + (q.2 - p.2) ^ 2)

/-- The position after the distance `s` (`/repo/hrosailing/cruising/basics.py:355`, `:376-379`); dividing by the
distance zero gives `nan`. -/
noncomputable def position (start stop : ℝ × ℝ) (s : ℝ) : Option (ℝ × ℝ) :=
  let latMp := (start.1 + stop.1) / 2
  let p := Cruising.mercator latMp start
  let q := Cruising.mercator latMp stop
  if totalS start stop = 0 then none
  else some (p.1 + s / totalS start stop * (q.1 - p.1), p.2 + s / totalS start stop * (q.2 - p.2))

/-- `scipy.integrate.trapezoid`, the default of `integration_method` (`/repo/hrosailing/cruising/basics.py:277`,
`:387`). -/
noncomputable def trapezoid : List (ℝ × ℝ) → ℝ
  | (x, y) :: (x', y') :: rest => (x' - x) * (y + y') / 2 + trapezoid ((x', y') :: rest)
  | _ => 0

/-- `cost_cruise` after solving the initial value problem (`/repo/hrosailing/cruising/basics.py:346-387`); `nodes` are
the distances `t_s.t` with the times `t_s.y[0]`, `place` gives the latitude and longitude of a distance (lines 375-380).
The last entry of an empty solution raises `IndexError`. -/
noncomputable def costCruise {P : Type} (nodes : List (ℝ × ℝ)) (place : ℝ → P) (total : ℝ) (abs : ℝ → ℝ → ℝ)
    (dens : Option (ℝ → P → ℝ)) : Except PyErr ℝ :=
  match nodes.getLast? with
  | none => .error .indexError
  | some last =>
    match dens with
    | none => .ok (abs last.2 total)
    | some dens => .ok (abs last.2 total + trapezoid (nodes.map fun n => (n.1, dens n.2 (place n.1))))

end Verif.Course
